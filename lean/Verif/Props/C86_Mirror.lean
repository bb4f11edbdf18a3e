import Verif.Lemmas.PaintMirror
import Verif.Props.C82_Grouping
import Verif.Props.C26_SymmetryHistory
import Mathlib.Analysis.Complex.ExponentialBounds

/-!
# C86: with mirroring switched on, a symmetric picture stays symmetric

With vertical or horizontal symmetry every dab is followed by its mirror image. The user relies on the result being mirror
symmetric pixel by pixel, not just roughly. This holds exactly when the mirror line lies between two pixels or through the
middle of pixels, for dabs that do not reach across the line, and that have a radius of at least 3 or an angle that is a
multiple of 90°. The last two conditions are needed: `small_skewed_dab_not_mirrored` and `dab_across_not_symmetric`.
-/

namespace Verif.Painting
open Verif.Full Verif.Dab Verif.Engine Verif.Blend Verif.Symm Verif.Map

section
variable {K R σ : Type} [Field K] [LinearOrder K] [IsStrictOrderedRing K] [FloorRing K]

/-- **C86** A session on a symmetric picture, with mirroring in force, all dabs of which lie beside the line and are straight:
the picture stays symmetric. -/
theorem picture_stays_symmetric_partial {e : Engine.Env K R σ} {b : Build} {env : Dab.Env K} (he : env.Valid) {trig : Trig K}
    (ht : trig.Laws) {sch : Schedule} {fuel : Nat} {l : Line} (hl : MirrorLaws l env)
    {alloc : Int → Bool} {garbage : Int → Transform K} {dirty : Int} {canvas : Canvas} {s0 : FSurf K}
    (h0 : init b trig alloc garbage dirty canvas = .ok s0) {br : Brush K R} (hbr : Underway br)
    {before bls : List (Block K)} {s s' : Studio K R} (hok : ∀ bl ∈ before, bl.Ok)
    (h1 : paint e b env trig sch fuel ⟨br, s0, 0⟩ before = .ok s) (hd : InForce s.surf.symm) (hm : MirrorsAt l s.surf.symm)
    (hq : Unswerving bls) (h2 : paint e b env trig sch fuel s bls = .ok s')
    (hdabs : ∀ r, strokes (recordDabs (e.on (Spec.Now.draw env s.surf.symm) (Spec.Now.getColor env sch))) fuel s.brush
      (⟨s.surf.surf.canvas, s.samples⟩, []) (bls.flatMap Block.motions) = .ok r → ∀ a ∈ r.2.2, Aside l a ∧ Straight env a)
    (hs : Symmetric l s.surf.surf.canvas) : Symmetric l s'.surf.surf.canvas := by
  have hf := paint_fine before hok (Studio.fine_init h0 hbr 0).1 h1
  have k := painting_appears_at_once h0 hbr hok h1 hd hq h2
  unfold Spec.Now.paint at k
  obtain ⟨dabs, k2⟩ := strokes_recorded _ fuel _ _ _ [] k
  exact strokes_symmetric (fun a ha v hv => draw_symmetric he hl ht hf.surf.symm hm ha.1 ha.2 hv) e k2 (hdabs _ k2) hs

/-- **C86** The same with conditions on the brush and the pen: a brush of radius at least 3, without scatter, offsets and
snapping, whose dabs have a radius of at most `ρ`; and a pen that keeps away from the line by more than that. -/
theorem pen_beside_the_line_partial {e : Engine.Env K R σ} (hdec : Decays e) {b : Build} {env : Dab.Env K} (he : env.Valid)
    {trig : Trig K} (ht : trig.Laws) {sch : Schedule} {fuel : Nat} {l : Line} (hl : MirrorLaws l env)
    {alloc : Int → Bool} {garbage : Int → Transform K} {dirty : Int} {canvas : Canvas} {s0 : FSurf K}
    (h0 : init b trig alloc garbage dirty canvas = .ok s0) {br : Brush K R} (hbr : Underway br)
    {before bls : List (Block K)} {s s' : Studio K R} (hok : ∀ bl ∈ before, bl.Ok)
    (h1 : paint e b env trig sch fuel ⟨br, s0, 0⟩ before = .ok s) (hd : InForce s.surf.symm) (hm : MirrorsAt l s.surf.symm)
    (hq : Unswerving bls) (h2 : paint e b env trig sch fuel s bls = .ok s')
    {C : K → K → Prop} (hC : Engine.Convex C) {ρ A : K} (hA : 0 ≤ A)
    (hfar : ∀ a : Args K, C a.x a.y → a.radius ≤ ρ + A / 2 → Aside l a)
    (hms : ∀ bl ∈ bls, ∀ m ∈ bl.motions, ∀ x y, Place m x y → C x y)
    (hn : NoScatter s.brush.settings) (hoff : NoOffset s.brush.settings) (hz : Sized e s.brush.settings ρ A)
    (hbig : ∀ i, 3 ≤ askedRadius e (calculate (s.brush.settings sRadiusLogarithmic) i))
    (hb0 : C s.brush.st.x s.brush.st.y) (hb1 : C s.brush.st.actualX s.brush.st.actualY)
    (hs : Symmetric l s.surf.surf.canvas) : Symmetric l s'.surf.surf.canvas := by
  have hf := paint_fine before hok (Studio.fine_init h0 hbr 0).1 h1
  refine picture_stays_symmetric_partial he ht hl h0 hbr hok h1 hd hm hq h2 (fun r hr a ha => ?_) hs
  set E := e.on (Spec.Now.draw env s.surf.symm) (Spec.Now.getColor env sch)
  have hms' : ∀ m ∈ bls.flatMap Block.motions, ∀ x y, Place m x y → C x y := by
    intro m hm
    obtain ⟨bl, hb, hm⟩ := List.mem_flatMap.mp hm
    exact hms bl hb m hm
  obtain ⟨-, -, k3⟩ := dabs_where_the_pen_was (e := E) hdec hC _ hms' hf.brush hn hz.snap hb0 hb1 _ hr
  obtain ⟨i, hi⟩ := dabs_shaped E _ hf.brush _ hr a ha
  have hrad := sized_radius (e := E) (s := s.brush.settings) (ρ := ρ) (A := A) ⟨hz.radius, hz.edge, hz.random, hz.snap⟩ hA hi
  obtain ⟨px, py, hCp, -, -, dn⟩ := k3 a ha
  obtain ⟨z1, z2⟩ := dn hoff
  refine ⟨hfar a (z1 ▸ z2 ▸ hCp) hrad, .inl ?_⟩
  have Ed := hi.edge hz.random hz.snap
  have hR : 3 ≤ askedRadius E (calculate (s.brush.settings sRadiusLogarithmic) i) := hbig i
  generalize askedRadius E (calculate (s.brush.settings sRadiusLogarithmic) i) = Q at *
  generalize max 0 (min 1 (calculate (s.brush.settings sHardness) i)) = hd' at *
  generalize calculate (s.brush.settings sAntiAliasing) i = f at *
  rcases le_or_gt f (Q - hd' * Q) with q | q
  · rw [(Ed.wide q).1]; exact hR
  · have w := Ed.width q
    have m := Ed.middle q
    linarith

/-- A block that switches mirroring on. The table of matrices has been allocated before, and memory does not run out. -/
theorem mirroring_in_force {e : Engine.Env K R σ} {b : Build} {env : Dab.Env K} {trig : Trig K} {sch : Schedule} {fuel : Nat}
    {s s' : Studio K R} (hs : s.Fine b env trig) (hnum : s.surf.symm.num ≠ 0) {bl : Block K} (hok : bl.Ok)
    (hal : ∀ n, bl.alloc n = true) {cx cy : K} {lines : Int} {l : Line}
    (hl : match l with
      | .upright n => 2 * cx = n ∧ bl.symmetry = some (true, cx, cy, 0, .vertical, lines)
      | .level n => 2 * cy = n ∧ bl.symmetry = some (true, cx, cy, 0, .horizontal, lines))
    {rs : List Rect} (h : block e b env trig sch fuel s bl = .ok (rs, s')) :
    InForce s'.surf.symm ∧ MirrorsAt l s'.surf.symm := by
  obtain ⟨s1, s2, es, h1, h2, h3, h4, -, -⟩ := block_eq hs h
  obtain ⟨hs1, -, -, hu⟩ := beginAtomic_sound h1 (setUp_sound hok hs.surf)
  obtain ⟨-, -, e2, -⟩ := run_canvas es s1 s2 _ h2 h3 hs1 (Q := fun _ => True) (fun _ _ _ _ _ _ _ _ _ _ => trivial) trivial
  have e3 : s'.surf.symm = s1.symm := by
    rw [← e2]
    unfold endAtomic at h4
    obtain ⟨su, -, h4⟩ := except_bind_ok h4
    cases hr : bl.roi with
    | none => rw [hr] at h4; exact (congrArg (fun p => p.2.symm) (Except.ok.inj h4)).symm
    | some p =>
      rw [hr] at h4
      obtain ⟨rr, -, h4⟩ := except_bind_ok h4
      exact (congrArg (fun p => p.2.symm) (Except.ok.inj h4)).symm
  rw [e3]
  clear e3 e2 h4 h3 h2 es s2
  have hi := (setUp_sound hok hs.surf).symm
  obtain ⟨type, hb, ht⟩ : ∃ type, bl.symmetry = some (true, cx, cy, 0, type, lines) ∧
      (match l with
        | .upright n => type = SymType.vertical ∧ 2 * cx = n
        | .level n => type = SymType.horizontal ∧ 2 * cy = n) := by
    cases l with
    | upright n => exact ⟨_, hl.2, rfl, hl.1⟩
    | level n => exact ⟨_, hl.2, rfl, hl.1⟩
  have hd : (bl.setUp s.surf).symm = setPending s.surf.symm true cx cy 0 type lines := by
    unfold Block.setUp
    rw [hb]
  rw [hd] at hu hi
  have hno : ∀ n, type ≠ .other n := by
    intro n hn
    cases l <;> simp [hn] at ht
  have hcount : count (setPending s.surf.symm true cx cy 0 type lines).pending = 1 := by
    unfold count setPending
    cases l with
    | upright n => rw [ht.1]
    | level n => rw [ht.1]
  have fin : ∀ d : Data K, d.active = true → d.num ≠ 0 → d.current.angle = 0 → d.current.type = type → d.current.cx = cx →
      d.current.cy = cy → MirrorsAt l d := by
    intro d a1 a2 a3 a4 a5 a6
    refine ⟨a1, a2, a3, ?_⟩
    cases l with
    | upright n => exact ⟨a4.trans ht.1, a5 ▸ ht.2⟩
    | level n => exact ⟨a4.trans ht.1, a6 ▸ ht.2⟩
  rcases update_cases trig bl.alloc hi with ⟨k1, k2⟩ | ⟨-, k2, -⟩ | ⟨num, cap, c, pc, k1, k2, -, -, k3⟩
  · rw [hu] at k1
    rw [Except.ok.inj k1]
    have k := k2 rfl
    refine ⟨.inl (.inr k), ?_⟩
    simp only [statesEqual, decide_eq_true_eq] at k
    exact fin _ rfl hnum k.2.2.2.1 k.1 k.2.1 k.2.2.1
  · rw [hal] at k2
    cases k2
  · rw [hu] at k1
    rw [Except.ok.inj k1]
    refine ⟨.inl (.inl (k3 hno)), fin _ rfl ?_ rfl rfl rfl rfl⟩
    show num ≠ 0
    rcases k2 with ⟨k2, -, -⟩ | ⟨k2, -, -, -⟩
    · rw [k2]; exact hnum
    · rw [k2, hcount]; decide

end

/-! ### The hypotheses are met -/

theorem realDabEnv_mirror (l : Line) : MirrorLaws l realDabEnv := by
  cases l with
  | upright n =>
    intro a
    have e1 : (-180 - a) / 180 * Real.pi = -(Real.pi + a / 180 * Real.pi) := by ring
    constructor
    · show Real.sin ((-180 - a) / 180 * Real.pi) = Real.sin (a / 180 * Real.pi)
      rw [e1, Real.sin_neg, add_comm, Real.sin_add_pi, neg_neg]
    · show Real.cos ((-180 - a) / 180 * Real.pi) = -Real.cos (a / 180 * Real.pi)
      rw [e1, Real.cos_neg, add_comm, Real.cos_add_pi]
  | level n =>
    intro a
    have e1 : -a / 180 * Real.pi = -(a / 180 * Real.pi) := by ring
    constructor
    · show Real.sin (-a / 180 * Real.pi) = -Real.sin (a / 180 * Real.pi)
      rw [e1, Real.sin_neg]
    · show Real.cos (-a / 180 * Real.pi) = Real.cos (a / 180 * Real.pi)
      rw [e1, Real.cos_neg]

/-- A brush of radius e² (about 7.4) and no soft edge. -/
noncomputable def bigValues (id : Nat) : ℝ :=
  if id = sOpaque then 1 else if id = sOpaqueMultiply then 1 else if id = sRadiusLogarithmic then 2 else
  if id = sDabsPerActualRadius then 2 else if id = sEllipticalDabRatio then 3 else if id = sEllipticalDabAngle then 30 else 0

/-- A block that only switches mirroring at the line x = -10 on. -/
noncomputable def mirrorBlock : Block ℝ := { penBlock [] with symmetry := some (true, -10, 0, 0, .vertical, 2) }

theorem big_radius : 3 ≤ Real.exp 2 ∧ Real.exp 2 ≤ 9 := by
  constructor
  · have := Real.add_one_le_exp (2 : ℝ); linarith
  · have h := Real.exp_one_lt_d9
    have e : Real.exp 2 = Real.exp 1 * Real.exp 1 := by rw [← Real.exp_add]; norm_num
    have := Real.exp_pos 1
    rw [e]
    nlinarith

theorem new_table {garbage : Int → Transform ℝ} {d : Data ℝ}
    (h : Symm.default realTrig (fun _ => true) garbage = .ok d) : d.num = 16 := by
  cases h
  rfl

/-- Whatever is painted with a skewed brush on the right half of the desk, mirrored at x = -10, on a canvas of one colour. -/
example (b : Build) (garbage : Int → Transform ℝ) {s0 : FSurf ℝ} {fuel : Nat}
    (hs : init b realTrig (fun _ => true) garbage 0 (Demo.uniform ⟨0, 0, 0, 0⟩) = .ok s0)
    (strokes : List (List {p : ℝ × ℝ // rightDesk p.1 p.2})) {t t' : Studio ℝ Unit}
    (h1 : paint canvasEnv b realDabEnv realTrig Demo.sch fuel ⟨plainBrush bigValues, s0, 0⟩ [mirrorBlock] = .ok t)
    (h2 : paint canvasEnv b realDabEnv realTrig Demo.sch fuel t (strokes.map penBlock) = .ok t') :
    Symmetric (.upright (-20)) t'.surf.surf.canvas := by
  have hu : Underway (plainBrush bigValues) := ⟨⟨le_refl _, zero_lt_one⟩, le_refl _⟩
  have hf := (Studio.fine_init (env := realDabEnv) hs hu 0).1
  have hok : mirrorBlock.Ok := ⟨fun l => List.Perm.refl _, fun _ _ _ _ _ _ h => by cases h; decide⟩
  have h1' := h1
  unfold paint at h1'
  obtain ⟨⟨rs, t1⟩, h3, h4⟩ := except_bind_ok h1'
  have e4 : t1 = t := Except.ok.inj h4
  subst e4
  have hnum : s0.symm.num ≠ 0 := by
    unfold init at hs
    obtain ⟨d, hd, hs⟩ := except_bind_ok hs
    obtain ⟨su, -, hs⟩ := except_bind_ok hs
    have e1 : s0.symm = d := (congrArg FSurf.symm (Except.ok.inj hs)).symm
    rw [e1, new_table hd]
    decide
  obtain ⟨k1, k2⟩ := mirroring_in_force (l := .upright (-20)) hf hnum hok (fun _ => rfl) ⟨by norm_num, rfl⟩ h3
  obtain ⟨s1, s2, es, -, -, -, -, h5, -⟩ := block_eq hf h3
  have h5' : (Except.ok (plainBrush bigValues, (⟨.ok s1, 0⟩, [])) : Except Fault (Brush ℝ Unit × (World ℝ × List (Args ℝ)))) =
    .ok (t1.brush, ⟨.ok s2, t1.samples⟩, dabs es) := h5
  have hbr : t1.brush = plainBrush bigValues := (congrArg Prod.fst (Except.ok.inj h5')).symm
  have hcv : Symmetric (.upright (-20)) t1.surf.surf.canvas := by
    refine (block_canvas hf hok h3 (Q := fun c => Symmetric (.upright (-20)) c) ?_ ?_).2.1
    · intro w r hr a ha
      have hr' : (Except.ok (plainBrush bigValues, (w, [])) : Except Fault (Brush ℝ Unit × (World ℝ × List (Args ℝ)))) = .ok r := hr
      rw [← Except.ok.inj hr'] at ha
      cases ha
    · intro X Y p p' q q'
      rw [(Studio.fine_init (env := realDabEnv) hs hu 0).2, Demo.uniform_pixel] at q q'
      rw [← Except.ok.inj q, ← Except.ok.inj q']
  have c : ∀ id i, calculate (t1.brush.settings id) i = bigValues id := fun id i => by
    rw [hbr]; exact plainBrush_value _ id i
  refine pen_beside_the_line_partial (realEnv_decays _ _ _ _) realDabEnv_ok.valid realTrig_laws (realDabEnv_mirror _) hs hu
    (before := [mirrorBlock]) (fun bl hb => by rw [List.mem_singleton.mp hb]; exact hok) h1 k1 k2 ?_ h2 rightDesk_convex
    (ρ := 9) (A := 0) (le_refl _) ?_ ?_ ?_ ?_ ?_ ?_ ?_ ?_ hcv
  · intro bl hb
    obtain ⟨ps, -, rfl⟩ := List.mem_map.mp hb
    exact ⟨rfl, fun l => List.Perm.refl _⟩
  · intro a ha hr
    right
    have := ha.1
    push_cast
    linarith
  · intro bl hb
    obtain ⟨ps, -, rfl⟩ := List.mem_map.mp hb
    exact (penBlock_orderly ps).place
  · refine ⟨by rw [hbr]; norm_num [plainBrush, bigValues], ?_, ?_⟩ <;> (intro i; rw [c]; norm_num [bigValues]; done)
  · refine ⟨?_, ?_, ?_, ?_, ?_, ?_, ?_, ?_⟩ <;> (intro i; rw [c]; norm_num [bigValues]; done)
  · refine ⟨?_, ?_, ?_, ?_⟩
    · intro i
      rw [c]
      show max (1 / 5) (min 1000 (Real.exp (bigValues sRadiusLogarithmic))) ≤ 9
      have : bigValues sRadiusLogarithmic = 2 := by norm_num [bigValues]
      rw [this]
      exact max_le (by norm_num) ((min_le_right _ _).trans big_radius.2)
    all_goals (intro i; rw [c]; norm_num [bigValues]; done)
  · intro i
    rw [c]
    show 3 ≤ max (1 / 5) (min 1000 (Real.exp (bigValues sRadiusLogarithmic)))
    have : bigValues sRadiusLogarithmic = 2 := by norm_num [bigValues]
    rw [this]
    exact le_max_of_le_right (le_min (by norm_num) big_radius.1)
  · rw [hbr]; norm_num [plainBrush, State.cleared, rightDesk]
  · rw [hbr]; norm_num [plainBrush, State.cleared, rightDesk]

namespace Demo

/-- One dab on a transparent canvas, with mirroring at the line x = 16: some pixels afterwards. -/
def mirrored (env : Dab.Env ℚ) (a : Args ℚ) (ps : List (Int × Int)) : Option (List (Option Px)) :=
  match init .normal demoTrig (fun _ => true) (fun _ => Symm.unit) 0 (fun _ => .ok fun _ => 0) with
  | .error _ => none
  | .ok s0 =>
    match run .normal env demoTrig s0 [.setSymmetry true 16 0 0 .vertical 2, .beginAtomic (fun _ => true) (fun _ => true),
      .dab a, .endAtomic id none] with
    | .error _ => none
    | .ok s => some (ps.map fun q => (pixel s.surf.canvas q.1 q.2).toOption)

/-- Sine and cosine of -143 and -37 degrees are those of the triangle 3, 4, 5; all other angles are taken for 90 degrees. -/
def tiltedEnv : Dab.Env ℚ :=
  { demoEnv with sin := fun a => if a = -143 ∨ a = -37 then -3 / 5 else 1
                 cos := fun a => if a = -143 then -4 / 5 else if a = -37 then 4 / 5 else 0 }

theorem tiltedEnv_valid : tiltedEnv.Valid ∧ MirrorLaws (.upright 32) tiltedEnv := by
  refine ⟨⟨fun a => ?_, by norm_num [tiltedEnv, demoEnv]⟩, fun a => ?_⟩
  · simp only [tiltedEnv]
    by_cases h1 : a = -143
    · subst h1; norm_num
    · by_cases h2 : a = -37
      · subst h2; norm_num
      · simp [h1, h2]
  · simp only [tiltedEnv]
    by_cases h1 : a = -143
    · subst h1; norm_num
    · by_cases h2 : a = -37
      · subst h2; norm_num
      · have h3 : -180 - a ≠ -143 := fun h => h2 (by linarith)
        have h4 : -180 - a ≠ -37 := fun h => h1 (by linarith)
        simp [h1, h2, h3, h4]

/-- A round dab of radius 2 at an angle of -143 degrees. -/
def smallDab : Args ℚ := { demoArgs with x := 29 / 10, y := 1 / 2, radius := 2, angle := -143 }

/-- **C86 fails** for small skewed dabs: one of the pixels of this dab, far away from the line, and its mirror image. The angle
matters although the dab is round: `calculate_rr_antialiased` estimates the far end of the pixel on one side of the axis of the
dab, and takes the same side for the dab and its mirror image if a centre lies just so. -/
theorem small_skewed_dab_not_mirrored :
    Aside (.upright 32) smallDab ∧
    mirrored tiltedEnv smallDab [(3, 0), (28, 0), (4, 0), (27, 0)] =
      some [some ⟨14788, 0, 0, 14788⟩, some ⟨14788, 0, 0, 14788⟩, some ⟨9023, 0, 0, 9023⟩, some ⟨10339, 0, 0, 10339⟩] := by
  constructor
  · left; norm_num [smallDab]
  · decide +kernel

/-- A dark red dab of radius 5 that reaches across the line. -/
def acrossDab : Args ℚ := { demoArgs with x := 61 / 4, y := 1 / 2, radius := 5, opaque' := 9 / 10, colorR := 3 / 10 }

/-- **C86 fails** for dabs that reach across the line: a pixel gets the dab first and then its mirror image, the other pixel
the other way round, and the roundings differ. -/
theorem dab_across_not_symmetric :
    mirrored demoEnv acrossDab [(13, 0), (18, 0), (12, 0), (19, 0)] =
      some [some ⟨8836, 0, 0, 29458⟩, some ⟨8836, 0, 0, 29458⟩, some ⟨7083, 0, 0, 23615⟩, some ⟨7084, 0, 0, 23615⟩] := by
  decide +kernel

end Demo
end Verif.Painting
