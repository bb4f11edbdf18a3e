import Verif.Lemmas.PaintingTotal
import Verif.Spec.PaintingDemo
import Mathlib.Analysis.Real.Pi.Bounds

/-!
# C81: an ordinary painting session neither crashes nor hangs

The brush engine on the tiled surface, from a new surface on. The brush is `Tame`, the blocks are `Orderly`
(`Verif.Lemmas.PaintingTotal`): conditions on the settings of the brush and on the arguments of the application only. A brush
may scatter, by a bounded amount, and snap to pixels.
Allocations of the symmetry table and of the list of changed areas may fail (`alloc`, `balloc`).
-/

namespace Verif.Painting
open Verif.Full Verif.Dab Verif.Engine Verif.Blend Verif.Map Verif.Mask Verif.Symm

section
variable {K R σ : Type} [Field K] [LinearOrder K] [IsStrictOrderedRing K] [FloorRing K]

/-! ### Specification -/

/-- All goes well: with enough steps for its loops, and no matter how many more, the session ends, always in the same
way, with a valid picture. -/
def GoesWell (run : Nat → Except Fault (Studio K R)) : Prop :=
  ∃ n t, (∀ k, n ≤ k → run k = .ok t) ∧ CanvasValid t.surf.surf.canvas

/-- The program ends on a failed assertion. -/
def Aborts (run : Nat → Except Fault (Studio K R)) : Prop := ∃ n, ∀ k, n ≤ k → run k = .error .assertFail

/-- A new surface and a brush to paint on it. -/
structure Fresh (b : Build) (trig : Trig K) (C : K → K → Prop) (M ρ : K) (s : Studio K R) : Prop where
  surf : ∃ alloc garbage dirty canvas, init b trig alloc garbage dirty canvas = .ok s.surf ∧ CanvasValid canvas
  brush : Ready s.brush M ρ
  place : BrushIn C s.brush

/-! ### Proofs -/

theorem fresh_poised {b : Build} {env : Dab.Env K} {trig : Trig K} {C : K → K → Prop} {M ρ : K} {s : Studio K R}
    (h : Fresh b trig C M ρ s) {N : K} (hN : 0 ≤ N) (g : Surf.Room) (sy : Symmetries) : Poised b env trig C M ρ N g sy s := by
  obtain ⟨alloc, garbage, dirty, canvas, h1, h2⟩ := h.surf
  obtain ⟨k1, k2⟩ := init_fit (env := env) h1 h2 g sy
  exact ⟨h.brush, ⟨widened_self hN h.place.1, widened_self hN h.place.2⟩, by rw [k2]; exact k1⟩

theorem painting_goes {e : Engine.Env K R σ} (L : Laws e) (hdec : Decays e) {b : Build} {env : Dab.Env K}
    (he : Sample.EnvOk env) {trig : Trig K} {sch : Schedule} (hsch : ∀ n l, (sch.order n l).Perm l) {C : K → K → Prop}
    (hC : Engine.Convex C) (hCb : ∀ x y, C x y → |x| ≤ 1000000 ∧ |y| ≤ 1000000) {M ρ N B d : K} (g : Surf.Room)
    {sy : Symmetries} (hsy : sy.Allowed trig g) (hCs : sy ≠ .off → ∀ x y, C x y → |x| ≤ 200000 ∧ |y| ≤ 200000)
    (bls : List (Block K)) {s : Studio K R} (hs : Fresh b trig C M ρ s) (ht : Tame e s.brush.settings M ρ N B d)
    (hg : Reason b C s.brush.settings d g) (hbl : ∀ bl ∈ bls, Orderly sy C bl) :
    GoesWell (fun k => paint e b env trig sch k s bls) ∨
      (g = .unsure ∧ Aborts (fun k => paint e b env trig sch k s bls)) := by
  obtain ⟨n, ⟨t, h1, h2⟩ | ⟨hu, h1⟩⟩ := paint_total L hdec he hsch hC hCb hsy hCs bls
    (fresh_poised (env := env) hs ht.spread.scatter.room.1 g sy) ht hg hbl
  · exact .inl ⟨n, t, h1, h2.surf.valid⟩
  · exact .inr ⟨hu, n, h1⟩

/-! ### The theorems -/

/-- **C81**. A tame brush that does not sample the canvas, and an application in order: any number of blocks of any number
of events ends, without any fault, with a valid picture. -/
theorem ordinary_painting_goes_well {e : Engine.Env K R σ} (L : Laws e) (hdec : Decays e) {b : Build} {env : Dab.Env K}
    (he : Sample.EnvOk env) {trig : Trig K} {sch : Schedule} (hsch : ∀ n l, (sch.order n l).Perm l) {C : K → K → Prop}
    (hC : Engine.Convex C) (hCb : ∀ x y, C x y → |x| ≤ 1000000 ∧ |y| ≤ 1000000) {M ρ N B d : K}
    (bls : List (Block K)) {s : Studio K R} (hs : Fresh b trig C M ρ s) (ht : Tame e s.brush.settings M ρ N B d)
    (hn : NeverSamples s.brush.settings) (hbl : ∀ bl ∈ bls, Orderly .off C bl) :
    GoesWell (fun k => paint e b env trig sch k s bls) := by
  rcases painting_goes L hdec he hsch hC hCb .quiet (sy := .off) (fun h => absurd rfl h) (fun h => absurd rfl h) bls hs ht hn hbl with h | ⟨h, -⟩
  · exact h
  · cases h

/-- C81 for brushes that smudge, as long as one of the tiles around the origin (20 by 20, or 2 by 2 with `HEAVY_DEBUG`) is
out of reach of the brush. -/
theorem smudging_goes_well_partial {e : Engine.Env K R σ} (L : Laws e) (hdec : Decays e) {b : Build} {env : Dab.Env K}
    (he : Sample.EnvOk env) {trig : Trig K} {sch : Schedule} (hsch : ∀ n l, (sch.order n l).Perm l) {C : K → K → Prop}
    (hC : Engine.Convex C) (hCb : ∀ x y, C x y → |x| ≤ 1000000 ∧ |y| ≤ 1000000) {M ρ N B d : K}
    (bls : List (Block K)) {s : Studio K R} (hs : Fresh b trig C M ρ s) (ht : Tame e s.brush.settings M ρ N B d)
    {t : TileIndex} (hin : Spec.TileMap.InBox b.initSize t) (hap : Apart C d t) (hbl : ∀ bl ∈ bls, Orderly .off C bl) :
    GoesWell (fun k => paint e b env trig sch k s bls) := by
  rcases painting_goes L hdec he hsch hC hCb (.spare t) (sy := .off) (fun h => absurd rfl h) (fun h => absurd rfl h) bls hs ht ⟨hin, hap⟩ hbl with h | ⟨h, -⟩
  · exact h
  · cases h

/-- C81 for every tame brush: all goes well, or the program ends on a failed assertion; there is no other fault, and it
does not hang. The assertion is the one of C05, and it can fail: `smudging_aborts`. -/
theorem painting_goes_well_or_aborts_partial {e : Engine.Env K R σ} (L : Laws e) (hdec : Decays e) {b : Build}
    {env : Dab.Env K} (he : Sample.EnvOk env) {trig : Trig K} {sch : Schedule} (hsch : ∀ n l, (sch.order n l).Perm l)
    {C : K → K → Prop} (hC : Engine.Convex C) (hCb : ∀ x y, C x y → |x| ≤ 1000000 ∧ |y| ≤ 1000000) {M ρ N B d : K}
    (bls : List (Block K)) {s : Studio K R} (hs : Fresh b trig C M ρ s) (ht : Tame e s.brush.settings M ρ N B d)
    (hbl : ∀ bl ∈ bls, Orderly .off C bl) :
    GoesWell (fun k => paint e b env trig sch k s bls) ∨ Aborts (fun k => paint e b env trig sch k s bls) :=
  (painting_goes L hdec he hsch hC hCb .unsure (sy := .off) (fun h => absurd rfl h) (fun h => absurd rfl h) bls hs ht trivial hbl).imp id And.right

end

/-! ### The hypotheses are met -/

section real
open Real

/-- The dab code with the functions of the real numbers. -/
noncomputable def realDabEnv : Dab.Env ℝ where
  sin a := Real.sin (a / 180 * π)
  cos a := Real.cos (a / 180 * π)
  pow a b := a ^ b
  rad1 := √(1 / π)

theorem realDabEnv_ok : Sample.EnvOk realDabEnv := by
  have p1 := Real.pi_gt_three
  have p2 := Real.pi_lt_four
  refine ⟨⟨fun a => ?_, ?_⟩, ?_⟩
  · have := Real.sin_sq_add_cos_sq (a / 180 * π)
    show Real.sin _ * Real.sin _ + Real.cos _ * Real.cos _ = 1
    nlinarith
  · show 1 / 2 < √(1 / π)
    apply Real.lt_sqrt_of_sq_lt
    rw [lt_div_iff₀ (by positivity)]
    nlinarith
  · show √(1 / π) ≤ 3 / 5
    apply Real.sqrt_le_iff.mpr
    refine ⟨by norm_num, ?_⟩
    rw [div_le_iff₀ (by positivity)]
    nlinarith

/-- The right half of the desk. -/
def rightDesk (x y : ℝ) : Prop := 0 ≤ x ∧ x ≤ 100000 ∧ |y| ≤ 100000

theorem rightDesk_convex : Engine.Convex rightDesk := by
  have key : ∀ {u v t a b : ℝ}, a ≤ u → u ≤ b → a ≤ v → v ≤ b → 0 ≤ t → t ≤ 1 → a ≤ u + (v - u) * t ∧ u + (v - u) * t ≤ b := by
    intro u v t a b h1 h2 h3 h4 t0 t1
    constructor <;> nlinarith
  rintro x y x' y' t ⟨h1, h2, h3⟩ ⟨h4, h5, h6⟩ t0 t1
  obtain ⟨a1, a2⟩ := abs_le.mp h3
  obtain ⟨a3, a4⟩ := abs_le.mp h6
  obtain ⟨k1, k2⟩ := key h1 h2 h4 h5 t0 t1
  exact ⟨k1, k2, abs_le.mpr (key a1 a2 a3 a4 t0 t1)⟩

/-- A brush of radius one, with or without smudging. -/
noncomputable def paintValues (smudge : Prop) [Decidable smudge] (id : Nat) : ℝ :=
  if id = sSmudge then (if smudge then 1 / 2 else 0) else if id = sOpaque then 1 else if id = sOpaqueMultiply then 1 else
  if id = sDabsPerActualRadius then 2 else if id = sEllipticalDabRatio then 1 else 0

theorem paint_tame (smudge : Prop) [Decidable smudge] :
    Tame canvasEnv (plainBrush (paintValues smudge)).settings 2 1 0 0 3 := by
  have c : ∀ id i, calculate ((plainBrush (paintValues smudge)).settings id) i = paintValues smudge id :=
    fun id i => plainBrush_value _ id i
  refine ⟨⟨by norm_num, le_refl _, ?_, ?_, ?_, ?_⟩, ⟨NoScatter.scatter ⟨?_, ?_, ?_⟩, ⟨1, 0, 0, 0, le_refl _, le_refl _, le_refl _,
    by norm_num, ?_, .inr ⟨?_, ?_⟩, .inr ⟨?_, ?_, ?_, ?_, ?_, ?_, ?_, ?_⟩, .inr ?_⟩, ?_, by norm_num⟩, ⟨?_, ?_, .inl ?_⟩, ?_, ?_⟩
  case refine_9 =>
    intro i
    rw [c]
    show max (1 / 5) (min 1000 (Real.exp (paintValues smudge sRadiusLogarithmic))) ≤ 1
    have : paintValues smudge sRadiusLogarithmic = 0 := by norm_num [paintValues]
    rw [this, Real.exp_zero]
    norm_num
  all_goals first | (intro i; rw [c]; norm_num [paintValues]; done) | norm_num [plainBrush, paintValues]

/-- A spray of radius one: tracking noise, random offset, and it snaps to pixels. -/
noncomputable def sprayValues (id : Nat) : ℝ :=
  if id = sOffsetByRandom then 2 else if id = sTrackingNoise then 1 / 4 else if id = sSnapToPixel then 1 else paintValues False id

/-- A spray is tame too, whatever the random numbers are, as long as they are between ±7/2, as those of the library (C27). -/
theorem spray_tame {R : Type} (next gauss : R → ℝ × R) (hg : ∀ r, |(gauss r).1| ≤ 7 / 2) :
    Tame (realEnv next gauss (fun (s : List (Dab.Args ℝ)) a => (true, s ++ [a])) (fun s _ _ _ _ => (⟨1, 0, 0, 1⟩, s)))
      (plainBrush sprayValues).settings 2 1 1 7 11 := by
  have c : ∀ id i, calculate ((plainBrush sprayValues).settings id) i = sprayValues id :=
    fun id i => plainBrush_value _ id i
  have e0 : Real.exp (sprayValues sRadiusLogarithmic) = 1 := by
    have : sprayValues sRadiusLogarithmic = 0 := by norm_num [sprayValues, paintValues]
    rw [this, Real.exp_zero]
  refine ⟨⟨by norm_num, le_refl _, ?_, ?_, ?_, ?_⟩, ⟨scatter_of_bound hg (by norm_num) (by norm_num) ?_ ?_ ?_, ⟨1, 0, 0, 1, le_refl _, le_refl _,
    by norm_num, by norm_num, ?_, .inr ⟨?_, ?_⟩, .inr ⟨?_, ?_, ?_, ?_, ?_, ?_, ?_, ?_⟩, .inl (le_refl _)⟩, ?_, by norm_num⟩,
    ⟨?_, ?_, .inl ?_⟩, ?_, ?_⟩
  case refine_5 =>
    show |Real.exp (sprayValues sRadiusLogarithmic) * sprayValues sTrackingNoise| * (7 / 2) ≤ 1
    rw [e0]
    norm_num [sprayValues, abs_of_pos]
  case refine_7 =>
    intro i
    rw [c]
    show |sprayValues sOffsetByRandom * Real.exp (sprayValues sRadiusLogarithmic)| * (7 / 2) ≤ 7
    rw [e0]
    norm_num [sprayValues, abs_of_pos]
  case refine_9 =>
    intro i
    rw [c]
    show max (1 / 5) (min 1000 (Real.exp (sprayValues sRadiusLogarithmic))) ≤ 1
    rw [e0]
    norm_num
  all_goals first | (intro i; rw [c]; norm_num [sprayValues, paintValues]; done) | norm_num [plainBrush, sprayValues, paintValues]

/-- The surface and the brush are new. -/
theorem paint_fresh (smudge : Prop) [Decidable smudge] {b : Build} {trig : Trig ℝ} {alloc : Int → Bool}
    {garbage : Int → Transform ℝ} {s : FSurf ℝ} (h : init b trig alloc garbage 0 (Demo.uniform ⟨0, 0, 0, 0⟩) = .ok s) :
    Fresh b trig rightDesk 2 1 (⟨plainBrush (paintValues smudge), s, 0⟩ : Studio ℝ Unit) := by
  refine ⟨⟨_, _, _, _, h, fun X Y => ⟨_, Demo.uniform_pixel _ X Y, by decide⟩⟩,
    ⟨⟨le_refl _, zero_lt_one⟩, ⟨le_refl _, rfl, .inl rfl⟩, ?_, le_refl _⟩, ?_, ?_⟩
  · exact ⟨by norm_num [plainBrush, State.cleared], by norm_num [plainBrush, State.cleared],
      by norm_num [plainBrush, State.cleared], by norm_num [plainBrush, State.cleared], .inl rfl⟩
  · norm_num [plainBrush, State.cleared, rightDesk]
  · norm_num [plainBrush, State.cleared, rightDesk]

/-- A block: the pen at some places on the right half of the desk, one every tenth of a second. -/
noncomputable def penBlock (ps : List {p : ℝ × ℝ // rightDesk p.1 p.2}) : Block ℝ :=
  ⟨none, fun _ => true, fun _ => true,
    ps.map fun p => ⟨.fin p.1.1, .fin p.1.2, 1 / 2, .fin 0, .fin 0, 1 / 10, 1, 0, 0, false⟩, id, some (4, fun _ => Rect.zero)⟩

theorem penBlock_orderly (ps : List {p : ℝ × ℝ // rightDesk p.1 p.2}) : Orderly .off rightDesk (penBlock ps) := by
  have q : ∀ p : {p : ℝ × ℝ // rightDesk p.1 p.2}, |p.1.1| ≤ 100000 ∧ |p.1.2| ≤ 100000 := fun p =>
    ⟨abs_le.mpr ⟨by linarith [p.2.1], p.2.2.1⟩, p.2.2.2⟩
  refine ⟨⟨fun l => List.Perm.refl _, fun _ _ _ _ _ _ h => by cases h⟩, rfl, fun n old h => ?_, fun m hm x y hp => ?_, fun m hm => ?_⟩
  · cases h; norm_num
  · obtain ⟨p, -, rfl⟩ := List.mem_map.mp hm
    obtain ⟨q1, q2⟩ := q p
    rcases hp with ⟨h1, h2, -⟩ | ⟨h | h, -⟩
    · cases h1; cases h2; exact p.2
    · have : (10 : ℝ) ^ 10 < |p.1.1| := h
      linarith
    · have : (10 : ℝ) ^ 10 < |p.1.2| := h
      linarith
  · obtain ⟨p, -, rfl⟩ := List.mem_map.mp hm
    obtain ⟨q1, q2⟩ := q p
    exact ⟨lt_of_le_of_lt q1 (by norm_num), lt_of_le_of_lt q2 (by norm_num), by simp, by simp, one_pos⟩

theorem rightDesk_bound (x y : ℝ) (h : rightDesk x y) : |x| ≤ 1000000 ∧ |y| ≤ 1000000 :=
  ⟨abs_le.mpr ⟨by linarith [h.1], by linarith [h.2.1]⟩, h.2.2.trans (by norm_num)⟩

/-- Whatever is painted with a plain brush on the right half of the desk. -/
example (b : Build) (trig : Trig ℝ) (alloc : Int → Bool) (garbage : Int → Transform ℝ)
    (strokes : List (List {p : ℝ × ℝ // rightDesk p.1 p.2})) :
    ∃ s, init b trig alloc garbage 0 (Demo.uniform ⟨0, 0, 0, 0⟩) = .ok s ∧
      GoesWell (fun k => paint canvasEnv b realDabEnv trig Demo.sch k
        (⟨plainBrush (paintValues False), s, 0⟩ : Studio ℝ Unit) (strokes.map penBlock)) := by
  obtain ⟨s, h, -⟩ := init_sound b realDabEnv trig alloc garbage 0 (Demo.uniform ⟨0, 0, 0, 0⟩)
  refine ⟨s, h, ordinary_painting_goes_well (realEnv_laws _ _ _ _ (fun _ => ⟨le_refl _, one_pos⟩)) (realEnv_decays _ _ _ _)
    realDabEnv_ok (fun _ _ => List.Perm.refl _) rightDesk_convex rightDesk_bound _ (paint_fresh False h) (paint_tame False) ?_ ?_⟩
  · rintro i ⟨-, k | k⟩
    · apply k
      show calculate ((plainBrush (paintValues False)).settings sSmudge) i = 0
      rw [plainBrush_value]; norm_num [paintValues]
    · cases k
  · intro bl hbl
    obtain ⟨ps, -, rfl⟩ := List.mem_map.mp hbl
    exact penBlock_orderly ps

/-- The same with a brush that smudges: the tile ten to the left of the origin is out of its reach. -/
example (trig : Trig ℝ) (alloc : Int → Bool) (garbage : Int → Transform ℝ)
    (strokes : List (List {p : ℝ × ℝ // rightDesk p.1 p.2})) :
    ¬ NeverSamples (plainBrush (paintValues True)).settings ∧
    ∃ s, init .normal trig alloc garbage 0 (Demo.uniform ⟨0, 0, 0, 0⟩) = .ok s ∧
      GoesWell (fun k => paint canvasEnv .normal realDabEnv trig Demo.sch k
        (⟨plainBrush (paintValues True), s, 0⟩ : Studio ℝ Unit) (strokes.map penBlock)) := by
  constructor
  · intro h
    refine h (fun _ => 0) ⟨?_, .inl ?_⟩
    · rw [plainBrush_value]; norm_num [paintValues]
    · rw [plainBrush_value]; norm_num [paintValues]
  obtain ⟨s, h, -⟩ := init_sound .normal realDabEnv trig alloc garbage 0 (Demo.uniform ⟨0, 0, 0, 0⟩)
  refine ⟨s, h, smudging_goes_well_partial (realEnv_laws _ _ _ _ (fun _ => ⟨le_refl _, one_pos⟩)) (realEnv_decays _ _ _ _)
    realDabEnv_ok (fun _ _ => List.Perm.refl _) rightDesk_convex rightDesk_bound _ (paint_fresh True h) (paint_tame True)
    (t := ⟨-10, 0⟩) ?_ ?_ ?_⟩
  · decide
  · intro px py hp
    right; left
    have := hp.1
    push_cast
    linarith
  · intro bl hbl
    obtain ⟨ps, -, rfl⟩ := List.mem_map.mp hbl
    exact penBlock_orderly ps

end real

/-! ### The assertion can fail -/

namespace Demo

/-- A red brush that samples the canvas with every dab. -/
def smudging : Brush ℚ Nat := Engine.Demo.set (Engine.Demo.set red sSmudge (1 / 2)) sSmudgeLengthLog 0

/-- A short stroke over the corner of four tiles. -/
def corner : List (Motion ℚ) :=
  [Engine.Demo.motion 0 0 (1 / 2) (1 / 10), Engine.Demo.motion 1 0 (1 / 2) (1 / 10),
    Engine.Demo.motion 4 0 (1 / 2) (1 / 10)]

/-- How a session of one block ends: the fault, if there is one. -/
def fate (b : Build) (br : Brush ℚ Nat) (ms : List (Motion ℚ)) : Option Fault :=
  match init b demoTrig (fun _ => true) (fun _ => Symm.unit) 0 (uniform ⟨0, 0, 0, 0⟩) with
  | .error f => some f
  | .ok s0 =>
    match paint { Engine.Demo.env with pow := fun a b => if b = 0 then 1 else a } b demoEnv demoTrig sch 100 ⟨br, s0, 0⟩
      [strokeBlock ms] with
    | .error f => some f
    | .ok _ => none

/-- **C81 fails** for brushes that smudge: with `HEAVY_DEBUG`, where the list of marked tiles starts with room for four,
two dabs over the corner of four tiles are enough. The first dab marks the tiles, the sample for the second one processes
them, the second dab marks them again, and the list has no room. (With the usual size it takes 400 tiles: `add_can_abort`.)
The same stroke with the usual size, and with a brush that does not smudge. -/
theorem smudging_aborts : fate .heavyDebug smudging corner = some .assertFail ∧ fate .normal smudging corner = none ∧
    fate .heavyDebug red corner = none := by
  refine ⟨?_, ?_, ?_⟩ <;> decide +kernel

end Demo
end Verif.Painting
