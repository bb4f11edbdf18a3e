import Verif.Lemmas.SymmetrySlide
import Verif.Props.C80_Everywhere
import Verif.Props.C82_Grouping

/-!
# C80 with symmetry: the centre moves along
-/

namespace Verif.Painting
open Verif.Full Verif.Dab Verif.Engine Verif.Symm Verif.Blend

section
variable {K R σ : Type} [Field K] [LinearOrder K] [IsStrictOrderedRing K] [FloorRing K]

/-- **C80** under symmetry. Two painting sessions, the second one the first one `u` pixels to the right and `w` pixels down,
starting from pictures that are the same up to this shift, under the same symmetry around centres that are the same up to this
shift, with a brush that does not sample the canvas and does not use the grid map: if both end, every pixel that is defined in
both pictures has the same colour. The motion events may be grouped into blocks differently. -/
theorem symmetric_stroke_looks_the_same_everywhere_partial {e : Engine.Env K R σ} {b : Build} {env : Dab.Env K}
    (he : env.Valid) {trig : Trig K} {sch : Schedule} {fuel : Nat} {u w : Int} {bls bls' : List (Block K)}
    (hq : Unswerving bls) (hq' : Unswerving bls')
    (hbl : bls'.flatMap Block.motions = (bls.flatMap Block.motions).map (Motion.slide (u : K) (w : K)))
    (hm : ∀ m ∈ bls.flatMap Block.motions, m.Near ∧ (m.slide (u : K) (w : K)).Near)
    {s s' t t' : Studio K R} (hs : s.Fine b env trig) (hs' : s'.Fine b env trig)
    (hf : InForce s.surf.symm) (hf' : InForce s'.surf.symm) (hy : SameSymmetry (u : K) (w : K) s.surf.symm s'.surf.symm)
    (hg : NoGridmap s.brush.settings) (hn : NeverSamples s.brush.settings)
    (hbr : Elsewhere (u : K) (w : K) s.brush s'.brush ∨ (s'.brush = s.brush ∧ Engine.Fresh s.brush))
    (hc : SamePicture u w s.surf.surf.canvas s'.surf.surf.canvas)
    (h : paint e b env trig sch fuel s bls = .ok t) (h' : paint e b env trig sch fuel s' bls' = .ok t') :
    SamePicture u w t.surf.surf.canvas t'.surf.surf.canvas := by
  have hbr' : Aligned (u : K) (w : K) s.brush s'.brush := by
    rcases hbr with q | ⟨q, q'⟩
    · exact .inl ⟨⟨hg, hn⟩, q⟩
    · exact .inr ⟨q, ⟨hg, hn⟩, q'⟩
  have k := paint_with e env sch _ fuel _ _ _ (paint_now bls hs.surf hf.agree hq h)
  have k' := paint_with e env sch _ fuel _ _ _ (paint_now bls' hs'.surf hf'.agree hq' h')
  have l := strokes_slide (draws_with e he trig sch u w) fuel (bls.flatMap Block.motions) hbr'
    (surf := (⟨s.surf.surf.canvas, s.samples⟩, s.surf.symm)) (surf' := (⟨s'.surf.surf.canvas, s'.samples⟩, s'.surf.symm))
    ⟨hs.surf.symm, hs'.surf.symm, hy, hc⟩ hm
  rw [hbl] at k'
  rw [k, k'] at l
  cases l with
  | ok l => exact l.1.2.2.2

/-- A block that asks for a symmetry. The table of matrices has been allocated before, and memory does not run out. -/
theorem symmetry_in_force {e : Engine.Env K R σ} {b : Build} {env : Dab.Env K} {trig : Trig K} {sch : Schedule} {fuel : Nat}
    {s s' : Studio K R} (hs : s.Fine b env trig) (hnum : s.surf.symm.num ≠ 0) {bl : Block K} (hok : bl.Ok)
    (hal : ∀ n, bl.alloc n = true) {cx cy angle : K} {type : SymType} {lines : Int} (hno : ∀ n, type ≠ .other n)
    (hb : bl.symmetry = some (true, cx, cy, angle, type, lines)) {rs : List Rect}
    (h : block e b env trig sch fuel s bl = .ok (rs, s')) :
    InForce s'.surf.symm ∧ s'.surf.symm.active = true ∧ s'.surf.symm.num ≠ 0 ∧
      s'.surf.symm.current = ⟨type, cx, cy, angle, f32 (max 2 lines)⟩ := by
  obtain ⟨s1, s2, es, h1, h2, h3, h4, -, -⟩ := block_eq hs h
  obtain ⟨hs1, -, -, hu⟩ := beginAtomic_sound h1 (setUp_sound hok hs.surf)
  obtain ⟨-, -, e2, -⟩ := run_canvas es s1 s2 _ h2 h3 hs1 (Q := fun _ => True) (fun _ _ _ _ _ _ _ _ _ _ => trivial) trivial
  have e3 : s'.surf.symm = s1.symm := by
    rw [← e2]
    unfold endAtomic at h4
    obtain ⟨su, -, h4⟩ := except_bind_ok h4
    cases hr : bl.roi with
    | none => rw [hr] at h4; exact (congrArg (fun p => p.2.symm) (Except.ok.inj h4)).symm
    | some p =>
      rw [hr] at h4
      obtain ⟨rr, -, h4⟩ := except_bind_ok h4
      exact (congrArg (fun p => p.2.symm) (Except.ok.inj h4)).symm
  rw [e3]
  clear e3 e2 h4 h3 h2 es s2
  have hi := (setUp_sound hok hs.surf).symm
  have hd : (bl.setUp s.surf).symm = setPending s.surf.symm true cx cy angle type lines := by
    unfold Block.setUp
    rw [hb]
  rw [hd] at hu hi
  have hcount : count (setPending s.surf.symm true cx cy angle type lines).pending ≠ 0 := by
    have h2 := hi.pend.1
    unfold count
    unfold setPending at h2 ⊢
    dsimp only at h2 ⊢
    cases type with
    | other n => exact absurd rfl (hno n)
    | _ => dsimp only; omega
  rcases update_cases trig bl.alloc hi with ⟨k1, k2⟩ | ⟨-, k2, -⟩ | ⟨num, cap, c, pc, k1, k2, -, -, k3⟩
  · rw [hu] at k1
    rw [Except.ok.inj k1]
    have k := k2 rfl
    refine ⟨.inl (.inr k), rfl, hnum, ?_⟩
    simp only [statesEqual, decide_eq_true_eq] at k
    show s.surf.symm.current = _
    obtain ⟨q1, q2, q3, q4, q5⟩ := k
    exact (Symm.State.mk.injEq ..).mpr ⟨q1, q2, q3, q4, q5⟩
  · rw [hal] at k2
    cases k2
  · rw [hu] at k1
    rw [Except.ok.inj k1]
    refine ⟨.inl (.inl (k3 hno)), rfl, ?_, rfl⟩
    show num ≠ 0
    rcases k2 with ⟨k2, -, -⟩ | ⟨k2, -, -, -⟩
    · rw [k2]; exact hnum
    · rw [k2]; exact hcount

/-- A block without motion events leaves brush and picture as they are. -/
theorem empty_block {e : Engine.Env K R σ} {b : Build} {env : Dab.Env K} {trig : Trig K} {sch : Schedule} {fuel : Nat}
    {s s' : Studio K R} (hs : s.Fine b env trig) {bl : Block K} (hok : bl.Ok) (hm : bl.motions = []) {rs : List Rect}
    (h : block e b env trig sch fuel s bl = .ok (rs, s')) :
    s'.Fine b env trig ∧ s'.brush = s.brush ∧ s'.surf.surf.canvas = s.surf.surf.canvas := by
  obtain ⟨k1, k2, -⟩ := block_canvas hs hok h (Q := fun c => c = s.surf.surf.canvas) (fun v r hr a ha => by
    rw [hm] at hr
    rw [← Except.ok.inj hr] at ha
    cases ha) rfl
  obtain ⟨s1, s2, es, -, -, -, -, h5, -⟩ := block_eq hs h
  rw [hm] at h5
  exact ⟨k1, (congrArg Prod.fst (Except.ok.inj h5)).symm, k2⟩

/-- **C80**, ask for a symmetry and paint under it: with the centre `u` pixels to the right and `w` pixels down, and the pen
as well, the picture is the same up to this shift. -/
theorem symmetric_picture_moves_along_partial {e : Engine.Env K R σ} {b : Build} {env : Dab.Env K} (he : env.Valid) {trig : Trig K} {sch : Schedule}
    {fuel : Nat} {u w : Int} {bls bls' : List (Block K)} (hq : Unswerving bls) (hq' : Unswerving bls')
    (hbl : bls'.flatMap Block.motions = (bls.flatMap Block.motions).map (Motion.slide (u : K) (w : K)))
    (hm : ∀ m ∈ bls.flatMap Block.motions, m.Near ∧ (m.slide (u : K) (w : K)).Near)
    {set set' : Block K} (ho : set.Ok) (ho' : set'.Ok) (hal : ∀ n, set.alloc n = true) (hal' : ∀ n, set'.alloc n = true)
    (hz : set.motions = []) (hz' : set'.motions = []) {cx cy angle : K} {type : SymType} {lines : Int} (hno : ∀ n, type ≠ .other n)
    (hx : set.symmetry = some (true, cx, cy, angle, type, lines))
    (hx' : set'.symmetry = some (true, cx + u, cy + w, angle, type, lines))
    {s s' t t' : Studio K R} (hs : s.Fine b env trig) (hs' : s'.Fine b env trig) (hnum : s.surf.symm.num ≠ 0)
    (hnum' : s'.surf.symm.num ≠ 0) (hg : NoGridmap s.brush.settings) (hn : NeverSamples s.brush.settings)
    (hbr : Elsewhere (u : K) (w : K) s.brush s'.brush ∨ (s'.brush = s.brush ∧ Engine.Fresh s.brush))
    (hc : SamePicture u w s.surf.surf.canvas s'.surf.surf.canvas)
    (h : paint e b env trig sch fuel s (set :: bls) = .ok t) (h' : paint e b env trig sch fuel s' (set' :: bls') = .ok t') :
    SamePicture u w t.surf.surf.canvas t'.surf.surf.canvas := by
  unfold paint at h h'
  obtain ⟨⟨rs, s1⟩, h1, h⟩ := except_bind_ok h
  obtain ⟨⟨rs', s1'⟩, h1', h'⟩ := except_bind_ok h'
  obtain ⟨f1, f2, f3⟩ := empty_block hs ho hz h1
  obtain ⟨g1, g2, g3⟩ := empty_block hs' ho' hz' h1'
  obtain ⟨a1, a2, a3, a4⟩ := symmetry_in_force hs hnum ho hal hno hx h1
  obtain ⟨b1, b2, b3, b4⟩ := symmetry_in_force hs' hnum' ho' hal' hno hx' h1'
  refine symmetric_stroke_looks_the_same_everywhere_partial he hq hq' hbl hm f1 g1 a1 b1
    ⟨b2.trans a2.symm, fun _ => ⟨fun q => absurd q b3, fun q => absurd q a3⟩, fun _ => by rw [a4, b4]⟩
    (by rw [f2]; exact hg) (by rw [f2]; exact hn) (by rw [f2, g2]; exact hbr) (by rw [f3, g3]; exact hc) h h'

end

/-! ### Example: the stroke of the demo mirrored at the line x = 80, and all of it 1000 pixels farther to the left and 5 up -/

namespace Demo

/-- Mirroring at the vertical line through (cx, cy). -/
def mirrorAt (cx cy : ℚ) : Block ℚ := { strokeBlock [] with symmetry := some (true, cx, cy, 0, .vertical, 2) }

/-- The session: the mirror, then the stroke. -/
def reflection (cx cy : ℚ) (ms : List (Motion ℚ)) (ps : List (Int × Int)) : Option (List (Option Px)) :=
  match studio red ⟨0, 0, 0, 0⟩ with
  | .error _ => none
  | .ok s =>
    match paint Engine.Demo.env .normal demoEnv demoTrig sch 100 s [mirrorAt cx cy, strokeBlock ms] with
    | .error _ => none
    | .ok s => some (ps.map fun q => (pixel s.surf.surf.canvas q.1 q.2).toOption)

example : reflection 80 10 events [(63, 10), (66, 10), (96, 10), (93, 10), (80, 10)] =
    some [some ⟨32760, 0, 0, 32760⟩, some ⟨32243, 0, 0, 32243⟩, some ⟨32760, 0, 0, 32760⟩, some ⟨32243, 0, 0, 32243⟩, some ⟨0, 0, 0, 0⟩] := by
  decide +kernel

example : reflection (-920) 5 (events.map (Motion.slide (-1000) (-5))) [(-937, 5), (-934, 5), (-904, 5), (-907, 5), (-920, 5)] =
    some [some ⟨32760, 0, 0, 32760⟩, some ⟨32243, 0, 0, 32243⟩, some ⟨32760, 0, 0, 32760⟩, some ⟨32243, 0, 0, 32243⟩, some ⟨0, 0, 0, 0⟩] := by
  decide +kernel

end Demo

open Demo in
/-- The theorem says this of every pixel. -/
example {s t t' : Studio ℚ Nat} (h0 : studio red ⟨0, 0, 0, 0⟩ = .ok s)
    (h : paint Engine.Demo.env .normal demoEnv demoTrig sch 100 s [mirrorAt 80 10, strokeBlock events] = .ok t)
    (h' : paint Engine.Demo.env .normal demoEnv demoTrig sch 100 s
      [mirrorAt (80 + (-1000 : Int)) (10 + (-5 : Int)), strokeBlock (events.map (Motion.slide ((-1000 : Int) : ℚ) ((-5 : Int) : ℚ)))] = .ok t') :
    SamePicture (-1000) (-5) t.surf.surf.canvas t'.surf.surf.canvas := by
  obtain ⟨s1, h1, hf, hb, hcv⟩ := studio_fine red_underway ⟨0, 0, 0, 0⟩
  rw [h0] at h1
  cases h1
  have ha : s.surf.symm.num ≠ 0 := by
    unfold studio at h0
    have : (studio red ⟨0, 0, 0, 0⟩).toOption.map (fun s => s.surf.symm.num) = some 16 := by decide +kernel
    unfold studio at this
    rw [h0] at this
    rw [show s.surf.symm.num = 16 from Option.some.inj this]
    decide
  have ok : ∀ cx cy : ℚ, (mirrorAt cx cy).Ok := fun cx cy => ⟨(strokeBlock_ok []).order, fun _ _ _ _ _ _ q => by cases q; decide⟩
  have un : ∀ ms, Unswerving [strokeBlock ms] := fun ms bl q => by
    rw [List.mem_singleton.mp q]; exact ⟨rfl, fun l => List.Perm.refl _⟩
  obtain ⟨r1, r2, r3⟩ := red_moves
  rw [← hb] at r1 r2 r3
  have one : ∀ ms, [strokeBlock ms].flatMap Block.motions = ms := fun ms => List.append_nil ms
  refine symmetric_picture_moves_along_partial (u := -1000) (w := -5) (cx := 80) (cy := 10) (angle := 0) (type := .vertical)
    (lines := 2) demoEnv_valid (un _) (un _) (by rw [one, one]) (by rw [one]; exact events_near) (ok _ _) (ok _ _)
    (fun _ => rfl) (fun _ => rfl) rfl rfl (fun _ q => by cases q) rfl rfl hf hf ha ha r1 r2 (.inr ⟨rfl, r3⟩) ?_ h h'
  intro X Y p p' hp hp'
  rw [hcv, uniform_pixel] at hp hp'
  cases hp; cases hp'; rfl

end Verif.Painting
