import Verif.Props.C81_Total

/-!
# C87: an ordinary painting session with symmetry neither crashes nor hangs

As C81, but the blocks may switch symmetry on and off and change its settings: `Follows` and `Orderly` in
`Verif.Lemmas.PaintingTotal`. `Symmetries` says what an application does: `.few` draws snowflakes with fewer than 32 lines
only, `.any` draws any snowflakes, and then the memory for the list of changed areas must be granted. The memory for the
table of matrices may always be refused.
-/

namespace Verif.Painting
open Verif.Full Verif.Dab Verif.Engine Verif.Blend Verif.Map Verif.Mask Verif.Symm

section
variable {K R σ : Type} [Field K] [LinearOrder K] [IsStrictOrderedRing K] [FloorRing K]

/-- **C87**. A tame brush that does not sample the canvas, and an application in order that uses symmetry: any number of
blocks of any number of events ends, without any fault, with a valid picture. -/
theorem symmetric_painting_goes_well {e : Engine.Env K R σ} (L : Laws e) (hdec : Decays e) {b : Build} {env : Dab.Env K}
    (he : Sample.EnvOk env) {trig : Trig K} (l : trig.Laws) {sch : Schedule} (hsch : ∀ n l, (sch.order n l).Perm l)
    {C : K → K → Prop} (hC : Engine.Convex C) (hCb : ∀ x y, C x y → |x| ≤ 200000 ∧ |y| ≤ 200000) {M ρ N B d : K}
    (sy : Symmetries) (bls : List (Block K)) {s : Studio K R} (hs : Fresh b trig C M ρ s)
    (ht : Tame e s.brush.settings M ρ N B d) (hn : NeverSamples s.brush.settings) (hbl : ∀ bl ∈ bls, Orderly sy C bl) :
    GoesWell (fun k => paint e b env trig sch k s bls) := by
  have hb : ∀ x y, C x y → |x| ≤ 1000000 ∧ |y| ≤ 1000000 := fun x y h =>
    ⟨(hCb x y h).1.trans (by norm_num), (hCb x y h).2.trans (by norm_num)⟩
  rcases painting_goes L hdec he hsch hC hb .quiet (sy := sy) (fun _ => ⟨l, by simp⟩) (fun _ => hCb) bls hs ht hn hbl with
    h | ⟨h, -⟩
  · exact h
  · cases h

/-- C87 for every tame brush: all goes well, or the program ends on a failed assertion, the one of C05; there is no other
fault, and it does not hang. -/
theorem symmetric_painting_goes_well_or_aborts_partial {e : Engine.Env K R σ} (L : Laws e) (hdec : Decays e) {b : Build}
    {env : Dab.Env K} (he : Sample.EnvOk env) {trig : Trig K} (l : trig.Laws) {sch : Schedule}
    (hsch : ∀ n l, (sch.order n l).Perm l) {C : K → K → Prop} (hC : Engine.Convex C)
    (hCb : ∀ x y, C x y → |x| ≤ 200000 ∧ |y| ≤ 200000) {M ρ N B d : K} (sy : Symmetries) (bls : List (Block K))
    {s : Studio K R} (hs : Fresh b trig C M ρ s) (ht : Tame e s.brush.settings M ρ N B d)
    (hbl : ∀ bl ∈ bls, Orderly sy C bl) :
    GoesWell (fun k => paint e b env trig sch k s bls) ∨ Aborts (fun k => paint e b env trig sch k s bls) := by
  have hb : ∀ x y, C x y → |x| ≤ 1000000 ∧ |y| ≤ 1000000 := fun x y h =>
    ⟨(hCb x y h).1.trans (by norm_num), (hCb x y h).2.trans (by norm_num)⟩
  exact (painting_goes L hdec he hsch hC hb .unsure (sy := sy) (fun _ => ⟨l, by simp⟩) (fun _ => hCb) bls hs ht trivial
    hbl).imp id And.right

end

/-! ### The hypotheses are met -/

/-- A block with a symmetry around the origin, of any kind. -/
noncomputable def symmetryBlock (p : ℝ × SymType × {n : Int // n ≤ 1048576})
    (ps : List {p : ℝ × ℝ // rightDesk p.1 p.2}) : Block ℝ :=
  { penBlock ps with symmetry := some (true, 0, 0, p.1, p.2.1, p.2.2.1) }

theorem symmetryBlock_orderly (p : ℝ × SymType × {n : Int // n ≤ 1048576}) (ps : List {p : ℝ × ℝ // rightDesk p.1 p.2}) :
    Orderly .any rightDesk (symmetryBlock p ps) := by
  have h := penBlock_orderly ps
  refine ⟨⟨h.ok.order, fun _ _ _ _ _ _ q => ?_⟩, ⟨fun _ _ _ _ _ _ q => ?_, fun _ => rfl⟩, h.room, h.place, h.sensible⟩
  · cases q; exact p.2.2.2
  · cases q; norm_num

/-- Whatever is painted with a plain brush on the right half of the desk, under whatever symmetries around the origin, even
if the memory for the matrices is refused at the beginning. -/
example (b : Build) (alloc : Int → Bool) (garbage : Int → Transform ℝ)
    (strokes : List ((ℝ × SymType × {n : Int // n ≤ 1048576}) × List {p : ℝ × ℝ // rightDesk p.1 p.2})) :
    ∃ s, init b realTrig alloc garbage 0 (Demo.uniform ⟨0, 0, 0, 0⟩) = .ok s ∧
      GoesWell (fun k => paint canvasEnv b realDabEnv realTrig Demo.sch k
        (⟨plainBrush (paintValues False), s, 0⟩ : Studio ℝ Unit) (strokes.map fun q => symmetryBlock q.1 q.2)) := by
  obtain ⟨s, h, -⟩ := init_sound b realDabEnv realTrig alloc garbage 0 (Demo.uniform ⟨0, 0, 0, 0⟩)
  refine ⟨s, h, symmetric_painting_goes_well (realEnv_laws _ _ _ _ (fun _ => ⟨le_refl _, one_pos⟩)) (realEnv_decays _ _ _ _)
    realDabEnv_ok realTrig_laws (fun _ _ => List.Perm.refl _) rightDesk_convex (fun x y h => ?_) .any _ (paint_fresh False h)
    (paint_tame False) ?_ ?_⟩
  · exact ⟨abs_le.mpr ⟨by linarith [h.1], by linarith [h.2.1]⟩, h.2.2.trans (by norm_num)⟩
  · rintro i ⟨-, k | k⟩
    · apply k
      show calculate ((plainBrush (paintValues False)).settings sSmudge) i = 0
      rw [plainBrush_value]; norm_num [paintValues]
    · cases k
  · intro bl hbl
    obtain ⟨⟨p, ps⟩, -, rfl⟩ := List.mem_map.mp hbl
    exact symmetryBlock_orderly p ps

/-! ### Snowflakes without memory -/

namespace Demo

/-- How a session of one block under a symmetry ends, with or without memory for the list of changed areas. -/
def symmetricFate (type : SymType) (lines : Int) (memory : Bool) : Option Fault :=
  match init .normal demoTrig (fun _ => true) (fun _ => Symm.unit) 0 (uniform ⟨0, 0, 0, 0⟩) with
  | .error f => some f
  | .ok s0 =>
    match paint Engine.Demo.env .normal demoEnv demoTrig sch 100 ⟨red, s0, 0⟩
      [{ strokeBlock corner with
          symmetry := some (true, 0, 0, 0, type, lines), balloc := fun _ => memory }] with
    | .error f => some f
    | .ok _ => none

/-- **C87 fails** for snowflakes with 32 lines if the memory for the list of changed areas is refused: a copy of a dab
writes behind the end of the list. -/
theorem snowflake_without_memory : symmetricFate .snowflake 32 false = some .outOfBounds := by decide +kernel

end Demo
end Verif.Painting
