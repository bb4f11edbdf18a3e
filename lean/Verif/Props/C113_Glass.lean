import Verif.Lemmas.EngineGlass
import Verif.Props.C99_Angle
import Verif.Props.C111_Swing

/-!
# C113: a mirrored stroke gives the mirrored picture

Who draws the second half of a face as the mirror image of the first one, by hand or with a program that mirrors the events of the pen,
expects the mirrored lines.
-/

namespace Verif.Engine
open Verif.Map Verif.Mask Verif.Color

section
variable {K R σ : Type} [Field K] [LinearOrder K] [IsStrictOrderedRing K] [FloorRing K]

/-- What the brush remembers does not matter for the first event of a new stroke. -/
theorem strokeEvent_fresh {e : Env K R σ} {fuel : Nat} {b : Brush K R} (hb : Fresh b) (hn : b.baseval sTrackingNoise = 0) (st : State K)
    (surf : σ) (ev : Event K) : strokeEvent e fuel { b with st := st } surf ev = strokeEvent e fuel b surf ev := by
  have hc : ∀ (st : State K) (x y t : K), cursor e { b with st := st } x y t = (x, y, { b with st := st }) := by
    intro st x y t
    unfold cursor
    dsimp only
    rw [show ({ b with st := st } : Brush K R).baseval sTrackingNoise = 0 from hn]
    simp only [ne_eq, not_true_eq_false, false_and, if_false]
    have hd : expDecay e (({ b with st := st } : Brush K R).baseval sSlowTracking) (100 * t) = 0 := by
      unfold expDecay
      exact if_pos hb.tracking
    rw [hd]
    unfold approach
    refine Prod.ext ?_ (Prod.ext ?_ rfl) <;> dsimp only <;> ring
  have hk : ∀ (st : State K) (x y t : K), skipStage e { b with st := st } x y t = ({ b with st := st }, t, false) := by
    intro st x y t
    unfold skipStage
    rw [if_neg (show ¬ ({ b with st := st } : Brush K R).skip > 1 / 1000 by
      show ¬ b.skip > 1 / 1000
      rw [hb.skip]
      norm_num)]
  have key : ∀ st : State K, strokeEvent e fuel { b with st := st } surf ev =
      (startOver e b ev.x ev.y ev.pressure).bind fun b1 => .ok (true, b1, surf) := by
    intro st
    unfold strokeEvent
    rw [hk]
    dsimp only
    simp only [Bool.false_eq_true, if_false, hc]
    rw [if_pos (show _ ∨ _ from .inr hb.reset)]
    rfl
  rw [key st, ← key b.st]

/-- The same for a whole stroke. -/
theorem strokes_fresh {e : Env K R σ} {fuel : Nat} {b : Brush K R} (hb : Fresh b) (hn : b.baseval sTrackingNoise = 0) {st : State K}
    (hp : st.pressure = b.st.pressure) (surf : σ) {ms : List (Motion K)} (hm : ms ≠ []) :
    strokes e fuel { b with st := st } surf ms = strokes e fuel b surf ms := by
  cases ms with
  | nil => exact absurd rfl hm
  | cons m ms =>
    unfold strokes strokeTo
    rw [show ({ b with st := st } : Brush K R).st.pressure = b.st.pressure from hp]
    simp only [strokeEvent_fresh hb hn]

/-- **C113**. The same stroke mirrored at an upright line, in a mirrored view and with the mirrored brush: the same fault, or the same
dabs, mirrored, and the brush ends in the same state, mirrored. -/
theorem mirrored_stroke {e : Env K R σ} (L : GlassLaws e) (n : K) (fuel : Nat) {b : Brush K R}
    (hb : Mirrorable b.settings) (h0 : b.skip ≤ 1 / 1000) {ms : List (Motion K)} (hm : ∀ m ∈ ms, m.Near ∧ (m.glass n).Near)
    (surf surf' : σ) :
    Alike (fun r r' => r'.2.2 = r.2.2.map (glassDab n) ∧ InGlass n r.1 r'.1)
      (strokes (recordDabs e) fuel b (surf, []) ms)
      (strokes (recordDabs e) fuel (glassBrush n b) (surf', []) (ms.map (Motion.glass n))) := by
  have hP : DrawsGlass (recordDabs e) n (fun s s' : σ × List (Dab.Args K) => s'.2 = s.2.map (glassDab n)) := by
    intro s s' d h
    show s'.2 ++ [glassDab n d] = (s.2 ++ [d]).map (glassDab n)
    rw [h, List.map_append]
    rfl
  have k := strokes_glass (e := recordDabs e) ⟨L.cos_neg, L.sin_neg, L.half, L.degrees⟩ hP fuel ms (b := b) (b' := glassBrush n b)
    (surf := (surf, [])) (surf' := (surf', []))
    ⟨⟨hb, h0⟩, ⟨b.st.gridmapX, b.st.gridmapY, glassAngle b.st.angle, b.st.viewrotation, b.idle, b.total⟩, b.vals, rfl,
      .inr (glassAngle_turns _)⟩ rfl hm
  cases hs : strokes (recordDabs e) fuel b (surf, []) ms <;>
    cases hs' : strokes (recordDabs e) fuel (glassBrush n b) (surf', []) (ms.map (Motion.glass n)) <;> rw [hs, hs'] at k <;> cases k
  · exact .error _
  · rename_i h
    obtain ⟨q1, -, p, v, q2, -⟩ := h
    exact .ok ⟨q1, p.gx, p.gy, p.angle, p.view, p.idle, p.total, v, q2⟩

/-- **C113**, for a new stroke: whatever the brush remembers, the mirrored events with the mirrored settings give the mirrored dabs. -/
theorem mirrored_new_stroke {e : Env K R σ} (L : GlassLaws e) (n : K) (fuel : Nat) {b : Brush K R}
    (hb : Mirrorable b.settings) (h0 : Fresh b) {ms : List (Motion K)} (h1 : ms ≠ []) (hm : ∀ m ∈ ms, m.Near ∧ (m.glass n).Near)
    (surf surf' : σ) :
    Alike (fun r r' => r'.2.2 = r.2.2.map (glassDab n) ∧ InGlass n r.1 r'.1)
      (strokes (recordDabs e) fuel b (surf, []) ms)
      (strokes (recordDabs e) fuel { b with settings := glassSettings b.settings } (surf', []) (ms.map (Motion.glass n))) := by
  have k := mirrored_stroke L n fuel hb (by rw [h0.skip]; norm_num) hm surf surf'
  have f : Fresh ({ b with settings := glassSettings b.settings } : Brush K R) := ⟨h0.reset, h0.skip, h0.tracking⟩
  have hn : ({ b with settings := glassSettings b.settings } : Brush K R).baseval sTrackingNoise = 0 := hb.steady
  rw [← strokes_fresh f hn (st := (glassBrush n b).st) rfl (surf', []) (by simpa using h1)]
  exact k

end
end Verif.Engine

namespace Verif.Painting
open Verif.Full Verif.Dab Verif.Engine Verif.Blend Verif.Symm Verif.Map

section
variable {K R σ : Type} [Field K] [LinearOrder K] [IsStrictOrderedRing K] [FloorRing K]

/-- The second picture is the mirror image of the first one, as far as both are defined. -/
def MirrorImage (l : Line) (c c' : Canvas) : Prop :=
  ∀ X Y p p', pixel c X Y = .ok p → pixel c' (l.image X Y).1 (l.image X Y).2 = .ok p' → p' = p

/-- Half a turn, in the functions the mask is computed with. -/
def TurnLaws (env : Dab.Env K) : Prop := ∀ t, env.sin (t + 180) = -env.sin t ∧ env.cos (t + 180) = -env.cos t

/-- Adding a number of half turns changes both signs or none. -/
theorem turn_halves {env : Dab.Env K} (h : TurnLaws env) (t : K) (k : ℤ) :
    (env.sin (t + 180 * k) = env.sin t ∧ env.cos (t + 180 * k) = env.cos t) ∨
      (env.sin (t + 180 * k) = -env.sin t ∧ env.cos (t + 180 * k) = -env.cos t) := by
  induction k using Int.induction_on with
  | zero => left; simp
  | succ i ih =>
    obtain ⟨h1, h2⟩ := h (t + 180 * ((i : ℤ) : K))
    have e : t + 180 * (((i : ℤ) + 1 : ℤ) : K) = t + 180 * ((i : ℤ) : K) + 180 := by push_cast; ring
    rw [e, h1, h2]
    rcases ih with ⟨q1, q2⟩ | ⟨q1, q2⟩ <;> rw [q1, q2] <;> simp
  | pred i ih =>
    obtain ⟨h1, h2⟩ := h (t + 180 * ((-(i : ℤ) - 1 : ℤ) : K))
    have e : t + 180 * ((-(i : ℤ) - 1 : ℤ) : K) + 180 = t + 180 * ((-(i : ℤ) : ℤ) : K) := by push_cast; ring
    rw [e] at h1 h2
    rcases ih with ⟨q1, q2⟩ | ⟨q1, q2⟩
    · right
      rw [q1] at h1; rw [q2] at h2
      exact ⟨by rw [h1, neg_neg], by rw [h2, neg_neg]⟩
    · left
      rw [q1] at h1; rw [q2] at h2
      exact ⟨(neg_inj.mp h1).symm, (neg_inj.mp h2).symm⟩

/-- The mirror image of a dab that is not small, as the engine draws it. -/
theorem dabAt_glass {env : Dab.Env K} (he : env.Valid) (ht : TurnLaws env) (n : Int) {a : Args K} (hr : 3 ≤ a.radius) (c : Canvas) :
    Spec.Now.dabAt env c (glassDab (n : K) a) = Spec.Now.dabAt env c (mirrorDab (.upright n) a) := by
  obtain ⟨k, hk⟩ := glassAngle_turns a.angle
  have e1 : glassAngle a.angle = (-180 - a.angle) + 180 * ((k + 1 : ℤ) : K) := by rw [hk]; push_cast; ring
  have m1 : glassDab (n : K) a = { mirrorDab (.upright n) a with angle := glassAngle a.angle } := rfl
  have hr' : 3 ≤ (mirrorDab (.upright n) a).radius := hr
  rcases turn_halves ht (-180 - a.angle) (k + 1) with ⟨q1, q2⟩ | ⟨q1, q2⟩
  · have t := ht (-180 - a.angle)
    rw [← dab_has_no_angle_partial he c (a := mirrorDab (.upright n) a) (α := -180 - a.angle + 180) hr' (.inr t), m1]
    refine dab_has_no_angle_partial he c (a := { mirrorDab (.upright n) a with angle := -180 - a.angle + 180 })
      (α := glassAngle a.angle) hr' (.inr ?_)
    rw [e1, q1, q2]
    dsimp only
    rw [t.1, t.2, neg_neg, neg_neg]
    exact ⟨rfl, rfl⟩
  · rw [m1]
    refine dab_has_no_angle_partial he c (α := glassAngle a.angle) hr' (.inr ?_)
    rw [e1, q1, q2]
    exact ⟨rfl, rfl⟩

/-- A dab on a picture, and its mirror image on the mirror image. -/
theorem dabAt_mirror {env : Dab.Env K} (he : env.Valid) {l : Line} (hl : MirrorLaws l env) {a : Args K} (ha : Straight env a)
    {c c' : Canvas} (h : MirrorImage l c c') :
    MirrorImage l (Spec.Now.dabAt env c a) (Spec.Now.dabAt env c' (mirrorDab l a)) := by
  unfold Spec.Now.dabAt
  rw [prepare_mirror]
  cases hp : prepare a with
  | error f => exact h
  | ok o =>
    cases o with
    | none => exact h
    | some op =>
      obtain ⟨-, -, g1, g2⟩ := prepare_args hp
      have hs : 3 ≤ op.radius ∨ env.sin op.angle = 0 ∨ env.cos op.angle = 0 := by rw [g1, g2]; exact ha
      have ho := prepare_valid hp
      intro X Y p p' hp hp'
      obtain ⟨q, hq, e⟩ := drawNow_pixel he ho hp
      obtain ⟨q', hq', e'⟩ := drawNow_pixel he (mirrorOp_valid (l := l) ho) hp'
      have hqq := h X Y q q' hq hq'
      subst hqq
      rw [opacity_mirror he hl hs] at e'
      have em : modes env (mirrorOp l op) = modes env op := by cases l <;> rfl
      rw [em, e] at e'
      exact (Except.ok.inj e').symm

/-- **C113**. Two painting sessions without symmetry, the second one the first one mirrored at a line between pixels or through the middle
of pixels: if the pictures were mirror images of each other before, they are afterwards. The blocks may divide the strokes
differently. The brush is in the mirrored
state, or new; it can be mirrored and has a radius of at least 3; small elongated dabs are not mirrored (C86). -/
theorem mirrored_painting_partial {e : Engine.Env K R σ} (L : GlassLaws e) {b : Build} {env : Dab.Env K} (he : env.Valid)
    (ht : TurnLaws env) {trig : Trig K} {sch : Schedule} {fuel : Nat} {n : Int} (hl : MirrorLaws (.upright n) env)
    {s s' t t' : Studio K R} (hf : s.Fine b env trig) (hf' : s'.Fine b env trig)
    (ha : s.surf.symm.active = false) (ha' : s'.surf.symm.active = false) {bls bls' : List (Block K)}
    (hq : Unswerving bls) (hq' : Unswerving bls')
    (hms : bls'.flatMap Block.motions = (bls.flatMap Block.motions).map (Motion.glass (n : K)))
    (hm : ∀ m ∈ bls.flatMap Block.motions, m.Near ∧ (m.glass (n : K)).Near)
    (hb : Mirrorable s.brush.settings) (hb0 : s.brush.skip ≤ 1 / 1000) 
    (hbr : s'.brush = glassBrush (n : K) s.brush ∨
      (Engine.Fresh s.brush ∧ s'.brush = { s.brush with settings := glassSettings s.brush.settings }))
    (hbig : ∀ i, 3 ≤ askedRadius e (calculate (s.brush.settings sRadiusLogarithmic) i))
    (hrand : ∀ i, calculate (s.brush.settings sRadiusByRandom) i = 0)
    (h : paint e b env trig sch fuel s bls = .ok t) (h' : paint e b env trig sch fuel s' bls' = .ok t')
    (hc : MirrorImage (.upright n) s.surf.surf.canvas s'.surf.surf.canvas) :
    MirrorImage (.upright n) t.surf.surf.canvas t'.surf.surf.canvas := by
  have k := paint_now bls hf.surf (InForce.agree (.inr ha)) hq h
  have k' := paint_now bls' hf'.surf (InForce.agree (.inr ha')) hq' h'
  have hagree : Agree s'.surf.symm s.surf.symm := .inr ⟨ha', ha⟩
  unfold Spec.Now.paint at k k'
  rw [hagree.draw, hms] at k'
  by_cases hnil : bls.flatMap Block.motions = []
  · rw [hnil] at k k'
    have q := congrArg (fun r => r.2.canvas) (Except.ok.inj k)
    have q' := congrArg (fun r => r.2.canvas) (Except.ok.inj k')
    dsimp only at q q'
    rw [← q, ← q']
    exact hc
  have k' : strokes (e.on (Spec.Now.draw env s.surf.symm) (Spec.Now.getColor env sch)) fuel (glassBrush (n : K) s.brush)
      ⟨s'.surf.surf.canvas, s'.samples⟩ ((bls.flatMap Block.motions).map (Motion.glass (n : K))) =
      .ok (t'.brush, ⟨t'.surf.surf.canvas, t'.samples⟩) := by
    rcases hbr with q | ⟨f, q⟩
    · rw [q] at k'; exact k'
    · rw [q] at k'
      rw [← k']
      exact strokes_fresh (b := { s.brush with settings := glassSettings s.brush.settings }) (st := (glassBrush (n : K) s.brush).st)
        ⟨f.reset, f.skip, f.tracking⟩ hb.steady rfl _ (by simpa using hnil)
  obtain ⟨dabs, k2⟩ := strokes_recorded _ fuel _ _ _ [] k
  obtain ⟨dabs', k2'⟩ := strokes_recorded _ fuel _ _ _ [] k'
  set E := e.on (Spec.Now.draw env s.surf.symm) (Spec.Now.getColor env sch) with hE
  have hP : DrawsGlass (recordDabs E) (n : K) (fun v v' : Spec.Now.Picture × List (Args K) =>
      (∀ a ∈ v.2, 3 ≤ a.radius) → MirrorImage (.upright n) v.1.canvas v'.1.canvas) := by
    intro v v' a hv hr
    have hv' := hv fun a q => hr a (List.mem_append_left _ q)
    have har : 3 ≤ a.radius := hr a (List.mem_append_right _ List.mem_cons_self)
    show MirrorImage (.upright n) (Spec.Now.draw env s.surf.symm v.1 a).2.canvas
      (Spec.Now.draw env s.surf.symm v'.1 (glassDab (n : K) a)).2.canvas
    have hd : ∀ (w : Spec.Now.Picture) (a : Args K), (Spec.Now.draw env s.surf.symm w a).2.canvas = Spec.Now.dabAt env w.canvas a := by
      intro w a
      unfold Spec.Now.draw
      rw [copies_nil ha]
      by_cases hvis : Painting.visible a = true
      · rw [if_pos hvis]; rfl
      · rw [if_neg hvis]
        unfold Painting.visible at hvis
        unfold Spec.Now.dabAt
        cases hp : prepare a with
        | error f => rfl
        | ok o =>
          cases o with
          | none => rfl
          | some op => exact absurd (by rw [hp]) hvis
    rw [hd, hd, dabAt_glass he ht n har]
    exact dabAt_mirror he hl (.inl har) hv'
  have G : GlassLaws (recordDabs E) := ⟨L.cos_neg, L.sin_neg, L.half, L.degrees⟩
  have r := strokes_glass (e := recordDabs E) G hP fuel (bls.flatMap Block.motions) (b := s.brush)
    (b' := glassBrush (n : K) s.brush) (surf := (⟨s.surf.surf.canvas, s.samples⟩, [])) (surf' := (⟨s'.surf.surf.canvas, s'.samples⟩, []))
    ⟨⟨hb, hb0⟩, ⟨s.brush.st.gridmapX, s.brush.st.gridmapY, glassAngle s.brush.st.angle, s.brush.st.viewrotation, s.brush.idle,
      s.brush.total⟩, s.brush.vals, rfl, .inr (glassAngle_turns _)⟩ (fun _ => hc) hm
  rw [k2, k2'] at r
  cases r with
  | ok r =>
    refine r.1 fun a ha => ?_
    obtain ⟨i, hi⟩ := dabs_shaped E _ hf.brush _ k2 a ha
    have Ed := hi.edge hrand hb.free
    have hR : 3 ≤ askedRadius E (calculate (s.brush.settings sRadiusLogarithmic) i) := hbig i
    generalize askedRadius E (calculate (s.brush.settings sRadiusLogarithmic) i) = Q at *
    generalize max 0 (min 1 (calculate (s.brush.settings sHardness) i)) = hd' at *
    generalize calculate (s.brush.settings sAntiAliasing) i = f at *
    rcases le_or_gt f (Q - hd' * Q) with q | q
    · rw [(Ed.wide q).1]; exact hR
    · have w := Ed.width q
      have m := Ed.middle q
      linarith

end

/-! ### Examples -/

section Demo
open Verif.Painting.Demo

open Real in
/-- The functions of the real numbers satisfy the laws. -/
theorem realEnv_glass {R σ : Type} (next gauss : R → ℝ × R) (draw : σ → Dab.Args ℝ → Bool × σ)
    (getColor : σ → Int → Int → ℝ → ℝ → Color.Rgba ℝ × σ) : GlassLaws (Engine.realEnv next gauss draw getColor) where
  cos_neg t := by
    show Real.cos (-t * (π / 180)) = Real.cos (t * (π / 180))
    rw [neg_mul, Real.cos_neg]
  sin_neg t := by
    show Real.sin (-t * (π / 180)) = -Real.sin (t * (π / 180))
    rw [neg_mul, Real.sin_neg]
  half t := by
    have e : (t + 180) * (π / 180) = t * (π / 180) + π := by ring
    constructor
    · show Real.cos ((t + 180) * (π / 180)) = -Real.cos (t * (π / 180))
      rw [e, Real.cos_add_pi]
    · show Real.sin ((t + 180) * (π / 180)) = -Real.sin (t * (π / 180))
      rw [e, Real.sin_add_pi]
  degrees t := by
    show -t * (180 / π) = -(t * (180 / π))
    ring

theorem realDabEnv_turn : TurnLaws realDabEnv := by
  intro t
  have e : (t + 180) / 180 * Real.pi = t / 180 * Real.pi + Real.pi := by ring
  constructor
  · show Real.sin ((t + 180) / 180 * Real.pi) = -Real.sin (t / 180 * Real.pi)
    rw [e, Real.sin_add_pi]
  · show Real.cos ((t + 180) / 180 * Real.pi) = -Real.cos (t / 180 * Real.pi)
    rw [e, Real.cos_add_pi]

/-- A broad pen with an elongated tip, held at 30 degrees, that paints a little to the right of where it is. -/
noncomputable def broadValues (id : Nat) : ℝ :=
  if id = sOffsetX then 1 else if id = sEllipticalDabRatio then 3 else if id = sEllipticalDabAngle then 30 else bigValues id

theorem broad_mirrorable : Mirrorable (plainBrush broadValues).settings := by
  have c : ∀ id i, calculate ((plainBrush broadValues).settings id) i = broadValues id := fun id i => plainBrush_value _ id i
  refine ⟨fun _ _ _ => rfl, ?_, ?_, ?_, ?_, ?_, ?_⟩
  · rintro i ⟨-, k | k⟩
    · apply k
      rw [plainBrush_value]; norm_num [broadValues, bigValues]
    · cases k
  · intro i
    rw [c, c, c]; norm_num [broadValues, bigValues]
  · intro i
    rw [c, c, c]; norm_num [broadValues, bigValues]
  · intro i
    rw [c]; norm_num [broadValues, bigValues]
  · intro i
    rw [c]; norm_num [broadValues, bigValues]
  · norm_num [plainBrush, broadValues, bigValues]

/-- The mirrored brush holds the tip at -30 degrees and paints to the left of where it is. -/
example (i : Nat → ℝ) : calculate (glassSettings (plainBrush broadValues).settings sEllipticalDabAngle) i = -30 ∧
    calculate (glassSettings (plainBrush broadValues).settings sOffsetX) i = -1 := by
  have h := congrFun (settings_glass (plainBrush broadValues).settings i)
  have c : ∀ id i, calculate ((plainBrush broadValues).settings id) i = broadValues id := fun id i => plainBrush_value _ id i
  constructor
  · refine (h sEllipticalDabAngle).trans ?_
    show -calculate ((plainBrush broadValues).settings sEllipticalDabAngle) i = -30
    rw [c]; norm_num [broadValues]
  · refine (h sOffsetX).trans ?_
    show -calculate ((plainBrush broadValues).settings sOffsetX) i = -1
    rw [c]; norm_num [broadValues]

theorem penMotions_near (n : ℝ) (h : |n| ≤ 1000) (ps : List {p : ℝ × ℝ // rightDesk p.1 p.2}) :
    ∀ m ∈ penMotions ps, m.Near ∧ (m.glass n).Near := by
  intro m hm
  obtain ⟨p, -, rfl⟩ := List.mem_map.mp hm
  have q1 : |p.1.1| ≤ 100000 := abs_le.mpr ⟨by linarith [p.2.1], p.2.2.1⟩
  have q2 : |p.1.2| ≤ 100000 := p.2.2.2
  refine ⟨⟨lt_of_le_of_lt q1 (by norm_num), lt_of_le_of_lt q2 (by norm_num)⟩, ?_, lt_of_le_of_lt q2 (by norm_num)⟩
  show |n - p.1.1| < 10 ^ 8
  have := abs_sub n p.1.1
  norm_num
  linarith

/-- Whatever is drawn on the right half of the desk with the broad pen, mirrored at x = 8. -/
example (ps : List {p : ℝ × ℝ // rightDesk p.1 p.2}) :
    Alike (fun r r' => r'.2.2 = r.2.2.map (glassDab 16) ∧ InGlass 16 r.1 r'.1)
      (strokes (recordDabs canvasEnv) 1000 (plainBrush broadValues) ([], []) (penMotions ps))
      (strokes (recordDabs canvasEnv) 1000 (glassBrush 16 (plainBrush broadValues)) ([], []) ((penMotions ps).map (Motion.glass 16))) :=
  mirrored_stroke (e := canvasEnv) (realEnv_glass _ _ _ _) 16 1000 broad_mirrorable (by norm_num [plainBrush])
    (penMotions_near 16 (by norm_num [abs_of_pos]) ps) _ _

/-- The blocks of a mirrored session. -/
noncomputable def glassBlock (n : ℝ) (bl : Block ℝ) : Block ℝ := { bl with motions := bl.motions.map (Motion.glass n) }

/-- Two canvases of one colour, on the second one everything is drawn mirrored at x = 8. -/
example (b : Build) (garbage : Int → Transform ℝ) {s0 : FSurf ℝ} {fuel : Nat}
    (h0 : init b realTrig (fun _ => true) garbage 0 (Demo.uniform ⟨0, 0, 0, 0⟩) = .ok s0)
    (strokes : List (List {p : ℝ × ℝ // rightDesk p.1 p.2})) {t t' : Studio ℝ Unit}
    (h1 : paint canvasEnv b realDabEnv realTrig Demo.sch fuel ⟨plainBrush broadValues, s0, 0⟩ (strokes.map penBlock) = .ok t)
    (h2 : paint canvasEnv b realDabEnv realTrig Demo.sch fuel ⟨glassBrush 16 (plainBrush broadValues), s0, 0⟩
      ((strokes.map penBlock).map (glassBlock 16)) = .ok t') :
    MirrorImage (.upright 16) t.surf.surf.canvas t'.surf.surf.canvas := by
  have hu : Underway (plainBrush broadValues) := ⟨⟨le_refl _, zero_lt_one⟩, le_refl _⟩
  have hu' : Underway (glassBrush 16 (plainBrush broadValues)) := ⟨⟨le_refl _, zero_lt_one⟩, le_refl _⟩
  have c : ∀ id i, calculate ((plainBrush broadValues).settings id) i = broadValues id := fun id i => plainBrush_value _ id i
  have f := Studio.fine_init (env := realDabEnv) h0 hu 0
  have f' := Studio.fine_init (env := realDabEnv) h0 hu' 0
  have ha : s0.symm.active = false := by
    unfold init at h0
    obtain ⟨d, hd, h0⟩ := except_bind_ok h0
    obtain ⟨su, -, h0⟩ := except_bind_ok h0
    have e1 : s0.symm = d := (congrArg FSurf.symm (Except.ok.inj h0)).symm
    rw [e1]
    cases hd
    rfl
  have hfl : ∀ l : List (List {p : ℝ × ℝ // rightDesk p.1 p.2}), (l.map penBlock).flatMap Block.motions = penMotions l.flatten := by
    intro l
    induction l with
    | nil => rfl
    | cons p l ih =>
      rw [List.map_cons, List.flatMap_cons, ih, List.flatten_cons]
      unfold penMotions
      rw [List.map_append]
      rfl
  have hgl : ∀ l : List (Block ℝ), (l.map (glassBlock 16)).flatMap Block.motions = (l.flatMap Block.motions).map (Motion.glass 16) := by
    intro l
    induction l with
    | nil => rfl
    | cons p l ih =>
      rw [List.map_cons, List.flatMap_cons, ih, List.flatMap_cons, List.map_append]
      rfl
  refine mirrored_painting_partial (n := 16) (realEnv_glass _ _ _ _) realDabEnv_ok.valid realDabEnv_turn (realDabEnv_mirror _) f.1 f'.1
    ha ha ?_ ?_ ?_ ?_ broad_mirrorable ?_ (.inl ?_) ?_ ?_ h1 h2 ?_
  · intro bl hb
    obtain ⟨ps, -, rfl⟩ := List.mem_map.mp hb
    exact ⟨rfl, fun l => List.Perm.refl _⟩
  · intro bl hb
    obtain ⟨bl, hb', rfl⟩ := List.mem_map.mp hb
    obtain ⟨ps, -, rfl⟩ := List.mem_map.mp hb'
    exact ⟨rfl, fun l => List.Perm.refl _⟩
  · rw [hgl]; norm_num
  · rw [hfl]
    exact penMotions_near _ (by norm_num [abs_of_pos]) _
  · norm_num [plainBrush]
  · norm_num
  · intro i
    rw [show (⟨plainBrush broadValues, s0, 0⟩ : Studio ℝ Unit).brush = plainBrush broadValues from rfl, c]
    show 3 ≤ max (1 / 5) (min 1000 (Real.exp (broadValues sRadiusLogarithmic)))
    have : broadValues sRadiusLogarithmic = 2 := by norm_num [broadValues, bigValues]
    rw [this]
    exact le_max_of_le_right (le_min (by norm_num) big_radius.1)
  · intro i
    rw [show (⟨plainBrush broadValues, s0, 0⟩ : Studio ℝ Unit).brush = plainBrush broadValues from rfl, c]
    norm_num [broadValues, bigValues]
  · intro X Y p p' hp hp'
    rw [show (⟨plainBrush broadValues, s0, 0⟩ : Studio ℝ Unit).surf.surf.canvas = s0.surf.canvas from rfl] at hp
    rw [show (⟨glassBrush 16 (plainBrush broadValues), s0, 0⟩ : Studio ℝ Unit).surf.surf.canvas = s0.surf.canvas from rfl] at hp'
    rw [f.2, Demo.uniform_pixel] at hp hp'
    cases hp; cases hp'; rfl

end Demo
end Verif.Painting

namespace Verif.Engine.Demo
open Verif.Color Verif.Mask

/-- The same replacements, and a slope of three to four in between. -/
def slopes : Env ℚ Nat (List (Dab.Args ℚ)) :=
  { cross with
    cos := fun a => if modArith a 360 = 45 ∨ modArith a 360 = 315 then 4 / 5 else if modArith a 180 = 45 ∨ modArith a 180 = 135 then -4 / 5
      else cross.cos a
    sin := fun a => if modArith a 360 = 45 ∨ modArith a 360 = 135 then 3 / 5 else if modArith a 180 = 45 ∨ modArith a 180 = 135 then -3 / 5
      else cross.sin a }

/-- Elongated dabs that lie aslant, a little beside the pen. -/
def slanting : Brush ℚ Nat := set (set pennant sEllipticalDabAngle 45) sOffsetX (1 / 4)

/-- Place and angle of the dabs. -/
def aslant (b : Brush ℚ Nat) (ms : List (Motion ℚ)) : Option (List (ℚ × ℚ × ℚ)) :=
  look (fun r => r.2.map fun a => (a.x, a.y, a.angle)) (strokes slopes 100 b [] ms)

/-- The first stroke goes to the right and the dabs lean one way, the mirrored one goes to the left and they lean the other way. -/
example : aslant slanting across =
      some [(177 / 116, 0, -135), (180213 / 78764, 0, -135), (480381 / 157528, 0, -135), (75042 / 19691, 0, -135)] ∧
    aslant { slanting with settings := glassSettings slanting.settings } (across.map (Motion.glass 8)) =
      some [(8 - 177 / 116, 0, -45), (8 - 180213 / 78764, 0, -45), (8 - 480381 / 157528, 0, -45), (8 - 75042 / 19691, 0, -45)] := by
  constructor <;> decide +kernel

end Verif.Engine.Demo
