import Verif.Lemmas.EnginePose
import Verif.Props.C80_Everywhere

/-!
# C85: a brush that does not use the tilt or the rotation of the pen paints the same however the pen is held
-/

namespace Verif.Engine
open Verif.Map

section
variable {K R σ : Type} [Field K] [LinearOrder K] [IsStrictOrderedRing K] [FloorRing K]

/-- **C85**, one event: the same fault, or the same answer, the same surface and the same brush, up to what the brush knows
about the tilt and the rotation. -/
theorem pose_does_not_matter_to_event (e : Env K R σ) (fuel : Nat) {b b' : Brush K R} (hi : IgnoresPose b.settings)
    (hb : SameBrush b b') {m m' : Motion K} (hm : SameMotion m m') (surf : σ) :
    Alike (fun r r' => r'.1 = r.1 ∧ r'.2.2 = r.2.2 ∧ SameBrush r.2.1 r'.2.1) (strokeTo e fuel b surf m)
      (strokeTo e fuel b' surf m') := by
  have k := strokeTo_pose (e := e) (posed_iff.mpr ⟨hi, hb⟩) fuel surf hm
  cases hs : strokeTo e fuel b surf m <;> cases hs' : strokeTo e fuel b' surf m' <;> rw [hs, hs'] at k <;> cases k
  · exact .error _
  · rename_i h
    exact .ok ⟨h.1, h.2.1, (posed_iff.mp h.2.2).2⟩

/-- **C85**, any number of events, on any surface with any random generator. -/
theorem pose_does_not_matter_to_strokes (e : Env K R σ) (fuel : Nat) {b b' : Brush K R} (hi : IgnoresPose b.settings)
    (hb : SameBrush b b') {ms ms' : List (Motion K)} (hm : List.Forall₂ SameMotion ms ms') (surf : σ) :
    Alike (fun r r' => r'.2 = r.2 ∧ SameBrush r.1 r'.1) (strokes e fuel b surf ms) (strokes e fuel b' surf ms') := by
  have k := strokes_pose (e := e) fuel hm surf (posed_iff.mpr ⟨hi, hb⟩)
  cases hs : strokes e fuel b surf ms <;> cases hs' : strokes e fuel b' surf ms' <;> rw [hs, hs'] at k <;> cases k
  · exact .error _
  · rename_i h
    exact .ok ⟨h.1, (posed_iff.mp h.2).2⟩

end
end Verif.Engine

namespace Verif.Painting
open Verif.Full Verif.Engine

section
variable {K R σ : Type} [Field K] [LinearOrder K] [IsStrictOrderedRing K] [FloorRing K]

theorem block_pose {e : Engine.Env K R σ} {b : Build} {env : Dab.Env K} {trig : Symm.Trig K} {sch : Schedule} {fuel : Nat}
    {s s' : Studio K R} (hs : s'.surf = s.surf) (hn : s'.samples = s.samples) (hb : Posed s.brush s'.brush) {bl bl' : Block K}
    (h : SameMotions bl bl') :
    Alike (fun r r' => r'.1 = r.1 ∧ r'.2.surf = r.2.surf ∧ r'.2.samples = r.2.samples ∧ Posed r.2.brush r'.2.brush)
      (block e b env trig sch fuel s bl) (block e b env trig sch fuel s' bl') := by
  obtain ⟨h1, h2⟩ := h
  have e1 : bl'.alloc = bl.alloc := by rw [h1]
  have e2 : bl'.balloc = bl.balloc := by rw [h1]
  have e3 : bl'.order = bl.order := by rw [h1]
  have e4 : bl'.roi = bl.roi := by rw [h1]
  have e5 : bl'.setUp s.surf = bl.setUp s.surf := by unfold Block.setUp; rw [h1]
  unfold block
  rw [hs, hn, e1, e2, e3, e4, e5]
  refine Alike.bind (Alike.same (P := Eq) _ fun _ _ => rfl) ?_
  rintro s1 _ rfl
  refine Alike.bind (strokes_pose fuel h2 _ hb) ?_
  rintro ⟨b1, w⟩ ⟨b1', w'⟩ ⟨q1, q2⟩
  dsimp only at q1 q2 ⊢
  subst q1
  refine Alike.bind (Alike.same (P := Eq) _ fun _ _ => rfl) ?_
  rintro s2 _ rfl
  refine Alike.bind (Alike.same (P := Eq) _ fun _ _ => rfl) ?_
  rintro t _ rfl
  exact .ok ⟨rfl, rfl, rfl, q2⟩

/-- **C85**. Two painting sessions on the tiled surface, with the same motions but the pen held in another way, with a brush
that does not use the tilt or the rotation of the pen: the same fault, or the same picture. -/
theorem pose_does_not_matter (e : Engine.Env K R σ) (b : Build) (env : Dab.Env K) (trig : Symm.Trig K) (sch : Schedule)
    (fuel : Nat) {bls bls' : List (Block K)} (hbl : List.Forall₂ SameMotions bls bls') {s s' : Studio K R}
    (hi : IgnoresPose s.brush.settings) (hs : SameStudio s s') :
    Alike SameStudio (paint e b env trig sch fuel s bls) (paint e b env trig sch fuel s' bls') := by
  have key : ∀ {s s' : Studio K R}, s'.surf = s.surf → s'.samples = s.samples → Posed s.brush s'.brush →
      Alike SameStudio (paint e b env trig sch fuel s bls) (paint e b env trig sch fuel s' bls') := by
    clear hs hi s s'
    induction hbl with
    | nil =>
      intro s s' h1 h2 h3
      exact .ok ⟨h1, h2, (posed_iff.mp h3).2⟩
    | cons hx _ ih =>
      intro s s' h1 h2 h3
      unfold paint
      refine Alike.bind (block_pose h1 h2 h3 hx) ?_
      rintro r r' ⟨-, q1, q2, q3⟩
      exact ih q1 q2 q3
  exact key hs.surf hs.samples (posed_iff.mpr ⟨hi, hs.brush⟩)

end

/-! ### Examples -/

section Demo
open Verif.Painting.Demo

/-- The red brush of the demo does not use the tilt. -/
theorem red_ignores : IgnoresPose red.settings := by
  refine ⟨?_, ⟨by decide +kernel, by decide +kernel⟩, ⟨by decide +kernel, by decide +kernel⟩⟩
  intro id k _
  show (((if id = sColorV then Engine.Demo.constant 1 else if id = sColorS then Engine.Demo.constant 1 else
    if id = sPaintMode then Engine.Demo.constant 0 else Engine.Demo.settings id : Map.Mapping ℚ)).pts k).n = 0
  split_ifs <;> rfl

/-- The same motion with a tilted pen. -/
def tilted (m : Motion ℚ) : Motion ℚ := { m with xtilt := .fin (1 / 2), ytilt := .posInf, barrel := 1 / 3 }

theorem tilted_same : List.Forall₂ SameMotion events (events.map tilted) := by
  have k : ∀ x y p t, SameMotion (Engine.Demo.motion x y p t) (tilted (Engine.Demo.motion x y p t)) :=
    fun x y p t => ⟨rfl, ⟨nofun, nofun⟩, nofun, nofun⟩
  exact .cons (k _ _ _ _) (.cons (k _ _ _ _) (.cons (k _ _ _ _) .nil))

example {s : Studio ℚ Nat} (h : s.brush = Demo.red) :
    Alike SameStudio (paint Engine.Demo.env .normal demoEnv demoTrig sch 100 s [strokeBlock events])
      (paint Engine.Demo.env .normal demoEnv demoTrig sch 100 s [strokeBlock (events.map tilted)]) :=
  pose_does_not_matter _ _ _ _ _ _ (.cons ⟨rfl, tilted_same⟩ .nil) (h ▸ red_ignores)
    ⟨rfl, rfl, _, _, _, _, _, rfl⟩

/-- What the session with the tilted pen leaves behind: see the example in C80 for the upright pen. -/
example : observe red ⟨0, 0, 0, 0⟩ (events.map tilted) [(63, 10), (66, 10), (63, 30)] =
    some ([⟨58, 5, 12, 10⟩], [some ⟨32760, 0, 0, 32760⟩, some ⟨32243, 0, 0, 32243⟩, some ⟨0, 0, 0, 0⟩]) := by
  decide +kernel

/-- To a brush with an offset in the direction of the tilt it does matter. -/
example : places (Engine.Demo.set red sOffsetAngleAsc 1) (nearby.map tilted) ≠
    places (Engine.Demo.set red sOffsetAngleAsc 1) nearby := by
  decide +kernel

/-- And a tilt that is not a number ends the program. -/
example : Engine.Demo.look (fun _ => ()) (strokes Engine.Demo.env 100 red [] (nearby.map fun m => { m with xtilt := .nan })) = none := by
  decide +kernel

end Demo
end Verif.Painting
