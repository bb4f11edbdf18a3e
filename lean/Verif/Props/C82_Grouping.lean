import Verif.Lemmas.PaintNow
import Verif.Props.C56_Feedback
import Verif.Props.C81_Total

/-!
# C82: dabs appear as if drawn at once; how motion events are grouped into blocks does not matter

`mypaint_surface_draw_dab` only queues a dab for the tiles it touches; the tiles are processed at `end_atomic`, or when a colour
is picked from them. An application sends motion events between `begin_atomic` and `end_atomic`, one at a time or many. The user
relies on none of this being visible: the picture, the brush and the colours picked up on the way are those of a surface on
which every dab appears at the moment it is drawn (`Spec/PaintNow`), so they do not depend on how the events are grouped, on the
order in which `end_atomic` processes the tiles, or on whether the changed areas are asked for.
-/

namespace Verif.Painting
open Verif.Full Verif.Dab Verif.Engine Verif.Blend Verif.Symm

section
variable {K R σ : Type} [Field K] [LinearOrder K] [IsStrictOrderedRing K] [FloorRing K]

/-- Blocks that leave the symmetry setting alone, and process every marked tile in the end. -/
def Unswerving (bls : List (Block K)) : Prop := ∀ bl ∈ bls, bl.symmetry = none ∧ ∀ l, (bl.order l).Perm l

/-- The symmetry setting is in force: no change of it is pending, or symmetry is switched off. -/
def InForce (d : Data K) : Prop := Settled d ∨ d.active = false

omit [IsStrictOrderedRing K] [FloorRing K] in
theorem InForce.agree {d : Data K} (h : InForce d) : Agree d d := h.imp (fun h => ⟨rfl, h⟩) fun h => ⟨h, h⟩

theorem paint_now {e : Engine.Env K R σ} {b : Build} {env : Dab.Env K} {trig : Trig K} {sch : Schedule} {fuel : Nat} :
    ∀ (bls : List (Block K)) {s s' : Studio K R} {d : Data K}, Sound b env trig s.surf s.surf.surf.canvas → Agree d s.surf.symm → Unswerving bls →
      paint e b env trig sch fuel s bls = .ok s' →
      Spec.Now.paint e env d sch fuel s.brush ⟨s.surf.surf.canvas, s.samples⟩ (bls.flatMap Block.motions) =
        .ok (s'.brush, ⟨s'.surf.surf.canvas, s'.samples⟩)
  | [], s, s', d, _, _, _, h => by
    cases h
    rfl
  | bl :: bls, s, s', d, hs, hd, hq, h => by
    unfold paint at h
    obtain ⟨⟨rs, s1⟩, h1, h2⟩ := except_bind_ok h
    obtain ⟨q1, q2⟩ := hq bl List.mem_cons_self
    obtain ⟨k1, k2, k3⟩ := block_now hs hd q2 q1 h1
    have ih := paint_now bls k3 k2 (fun bl' hb => hq bl' (List.mem_cons_of_mem _ hb)) h2
    unfold Spec.Now.paint at k1 ih ⊢
    rw [List.flatMap_cons, strokes_append, k1]
    exact ih

theorem paint_fine {e : Engine.Env K R σ} {b : Build} {env : Dab.Env K} {trig : Trig K} {sch : Schedule} {fuel : Nat}
    (bls : List (Block K)) (hok : ∀ bl ∈ bls, bl.Ok) {s s' : Studio K R} (hs : s.Fine b env trig)
    (h : paint e b env trig sch fuel s bls = .ok s') : s'.Fine b env trig :=
  (paint_keeps (I := fun _ => True) (Q := fun _ => True) (fun _ => True) (fun _ => True) (fun _ _ _ _ => trivial)
    (fun _ _ _ _ => trivial) (fun _ _ _ _ _ _ _ _ => ⟨trivial, fun _ _ _ _ _ _ _ _ _ _ _ _ => trivial⟩) bls hs
    (fun bl hb => ⟨hok bl hb, trivial⟩) trivial trivial trivial h).1

/-- **C82** A session of any blocks, begun at any point of the history of a surface where the symmetry setting is in force,
gives the brush, the picture and the number of colours sampled of painting all the motion events at once. -/
theorem painting_appears_at_once {e : Engine.Env K R σ} {b : Build} {env : Dab.Env K} {trig : Trig K} {sch : Schedule} {fuel : Nat}
    {alloc : Int → Bool} {garbage : Int → Transform K} {dirty : Int} {canvas : Canvas} {s0 : FSurf K}
    (h0 : init b trig alloc garbage dirty canvas = .ok s0) {br : Brush K R} (hbr : Underway br)
    {before bls : List (Block K)} {s s' : Studio K R} (hok : ∀ bl ∈ before, bl.Ok)
    (h1 : paint e b env trig sch fuel ⟨br, s0, 0⟩ before = .ok s) (hd : InForce s.surf.symm) (hq : Unswerving bls)
    (h2 : paint e b env trig sch fuel s bls = .ok s') :
    Spec.Now.paint e env s.surf.symm sch fuel s.brush ⟨s.surf.surf.canvas, s.samples⟩ (bls.flatMap Block.motions) =
      .ok (s'.brush, ⟨s'.surf.surf.canvas, s'.samples⟩) :=
  paint_now bls (paint_fine before hok (Studio.fine_init h0 hbr 0).1 h1).surf hd.agree hq h2

/-- **C82** Two ways of grouping the same motion events give the same brush, the same picture and the same number of colours
sampled, if nothing goes wrong either way. -/
theorem grouping_does_not_matter {e : Engine.Env K R σ} {b : Build} {env : Dab.Env K} {trig : Trig K} {sch : Schedule} {fuel : Nat}
    {alloc : Int → Bool} {garbage : Int → Transform K} {dirty : Int} {canvas : Canvas} {s0 : FSurf K}
    (h0 : init b trig alloc garbage dirty canvas = .ok s0) {br : Brush K R} (hbr : Underway br)
    {before bls bls' : List (Block K)} {s t t' : Studio K R} (hok : ∀ bl ∈ before, bl.Ok)
    (h1 : paint e b env trig sch fuel ⟨br, s0, 0⟩ before = .ok s) (hd : InForce s.surf.symm) (hq : Unswerving bls) (hq' : Unswerving bls')
    (hm : bls.flatMap Block.motions = bls'.flatMap Block.motions)
    (h2 : paint e b env trig sch fuel s bls = .ok t) (h3 : paint e b env trig sch fuel s bls' = .ok t') :
    t.brush = t'.brush ∧ t.surf.surf.canvas = t'.surf.surf.canvas ∧ t.samples = t'.samples := by
  have k := painting_appears_at_once h0 hbr hok h1 hd hq h2
  have k' := painting_appears_at_once h0 hbr hok h1 hd hq' h3
  rw [hm, k'] at k
  have k2 := Except.ok.inj k
  have e1 := congrArg Prod.fst k2
  have e2 := congrArg (fun r => r.2.canvas) k2
  have e3 := congrArg (fun r => r.2.samples) k2
  exact ⟨e1.symm, e2.symm, e3.symm⟩

end

namespace Demo

/-- How a session ends: the fault, or the pixels at some places and the number of colours sampled. -/
def outcome (b : Build) (br : Brush ℚ Nat) (bls : List (Block ℚ)) (ps : List (Int × Int)) :
    Except Fault (List (Option Px) × Nat) :=
  match init b demoTrig (fun _ => true) (fun _ => Symm.unit) 0 (uniform ⟨0, 0, 0, 0⟩) with
  | .error f => .error f
  | .ok s0 =>
    match paint { Engine.Demo.env with pow := fun a b => if b = 0 then 1 else a } b demoEnv demoTrig sch 100 ⟨br, s0, 0⟩ bls with
    | .error f => .error f
    | .ok s => .ok (ps.map fun q => (pixel s.surf.surf.canvas q.1 q.2).toOption, s.samples)

/-- The stroke of `corner` in smaller steps. -/
def steps : List (Motion ℚ) := [0, 1, 2, 3, 4].map fun x => Engine.Demo.motion x 0 (1 / 2) (1 / 10)

/-- **C82** Grouping can decide whether the program survives: with `HEAVY_DEBUG`, a smudging brush breaks the assertion of C81
if the whole stroke is one block, and does not with one block per event. With the usual size of the list both ways go well,
and the picture is the same. -/
theorem grouping_decides_survival :
    outcome .heavyDebug smudging [strokeBlock steps] [] = .error .assertFail ∧
    outcome .heavyDebug smudging (steps.map fun m => strokeBlock [m]) [(0, 0), (3, 1)] =
      .ok ([some ⟨13293, 0, 0, 13293⟩, some ⟨18498, 0, 0, 18498⟩], 2) ∧
    outcome .normal smudging [strokeBlock steps] [(0, 0), (3, 1)] =
      .ok ([some ⟨13293, 0, 0, 13293⟩, some ⟨18498, 0, 0, 18498⟩], 2) := by
  refine ⟨?_, ?_, ?_⟩ <;> decide +kernel

/-- A block that only switches mirroring at the line x = 8 on. -/
def mirror : Block ℚ := { strokeBlock [] with symmetry := some (true, 8, 0, 0, .vertical, 2) }

/-- After it the setting is in force, with copies. -/
example : (match init .normal demoTrig (fun _ => true) (fun _ => Symm.unit) 0 (uniform ⟨0, 0, 0, 0⟩) with
    | .error _ => none
    | .ok s0 =>
      match paint Engine.Demo.env .normal demoEnv demoTrig sch 100 (⟨smudging, s0, 0⟩ : Studio ℚ Nat) [mirror] with
      | .error _ => none
      | .ok s => some (s.surf.symm.pendingChanges, s.surf.symm.active)) = some (false, true) := by decide +kernel

/-- The stroke and its mirror image, all in one block. -/
example : outcome .normal smudging [mirror, strokeBlock steps] [(3, 1), (12, 1), (20, 1)] =
    .ok ([some ⟨18498, 0, 0, 18498⟩, some ⟨18498, 0, 0, 18498⟩, some ⟨0, 0, 0, 0⟩], 2) := by
  decide +kernel

/-- The same with one block for each event. -/
example : outcome .normal smudging (mirror :: steps.map fun m => strokeBlock [m]) [(3, 1), (12, 1), (20, 1)] =
    .ok ([some ⟨18498, 0, 0, 18498⟩, some ⟨18498, 0, 0, 18498⟩, some ⟨0, 0, 0, 0⟩], 2) := by
  decide +kernel

end Demo

/-- Whatever is painted with a plain brush on the right half of the desk: one block for each stroke, or all in one block. -/
example (b : Build) (trig : Trig ℝ) (alloc : Int → Bool) (garbage : Int → Transform ℝ) {s : FSurf ℝ}
    (hs : init b trig alloc garbage 0 (Demo.uniform ⟨0, 0, 0, 0⟩) = .ok s)
    (strokes : List (List {p : ℝ × ℝ // rightDesk p.1 p.2})) :
    ∃ n t t', ∀ k, n ≤ k →
      paint canvasEnv b realDabEnv trig Demo.sch k (⟨plainBrush (paintValues False), s, 0⟩ : Studio ℝ Unit)
        (strokes.map penBlock) = .ok t ∧
      paint canvasEnv b realDabEnv trig Demo.sch k (⟨plainBrush (paintValues False), s, 0⟩ : Studio ℝ Unit)
        [penBlock strokes.flatten] = .ok t' ∧
      t.surf.surf.canvas = t'.surf.surf.canvas := by
  have key : ∀ l : List (List {p : ℝ × ℝ // rightDesk p.1 p.2}),
      GoesWell (fun k => paint canvasEnv b realDabEnv trig Demo.sch k
        (⟨plainBrush (paintValues False), s, 0⟩ : Studio ℝ Unit) (l.map penBlock)) := by
    intro l
    refine ordinary_painting_goes_well (realEnv_laws _ _ _ _ (fun _ => ⟨le_refl _, one_pos⟩)) (realEnv_decays _ _ _ _)
      realDabEnv_ok (fun _ _ => List.Perm.refl _) rightDesk_convex rightDesk_bound _ (paint_fresh False hs) (paint_tame False) ?_ ?_
    · rintro i ⟨-, k | k⟩
      · apply k
        show Map.calculate ((plainBrush (paintValues False)).settings sSmudge) i = 0
        rw [plainBrush_value]; norm_num [paintValues]
      · cases k
    · intro bl hbl
      obtain ⟨ps, -, rfl⟩ := List.mem_map.mp hbl
      exact penBlock_orderly ps
  have events : ∀ l : List (List {p : ℝ × ℝ // rightDesk p.1 p.2}),
      (l.map penBlock).flatMap Block.motions = ([l.flatten].map penBlock).flatMap Block.motions := by
    intro l
    induction l with
    | nil => rfl
    | cons p l ih =>
      rw [List.map_cons, List.flatMap_cons, ih]
      simp [penBlock]
  obtain ⟨n, t, h1, -⟩ := key strokes
  obtain ⟨n', t', h2, -⟩ := key [strokes.flatten]
  refine ⟨max n n', t, t', fun k hk => ?_⟩
  have k1 := h1 k (le_trans (le_max_left _ _) hk)
  have k2 := h2 k (le_trans (le_max_right _ _) hk)
  refine ⟨k1, k2, ?_⟩
  have quiet : ∀ l : List (List {p : ℝ × ℝ // rightDesk p.1 p.2}), Unswerving (l.map penBlock) := by
    intro l bl hbl
    obtain ⟨ps, -, rfl⟩ := List.mem_map.mp hbl
    exact ⟨rfl, fun l => List.Perm.refl _⟩
  refine (grouping_does_not_matter (before := []) hs ⟨(paint_fresh False hs).brush.pending, (paint_fresh False hs).brush.skipped⟩ (fun _ h => by cases h) rfl (.inr ?_)
    (quiet _) (quiet _) ?_ k1 k2).2.1
  · exact Bool.eq_false_iff.mpr fun h =>
      (init_fit (env := realDabEnv) hs (fun X Y => ⟨_, Demo.uniform_pixel _ X Y, by decide⟩) .unsure .off).1.off h rfl
  · exact events strokes

end Verif.Painting
