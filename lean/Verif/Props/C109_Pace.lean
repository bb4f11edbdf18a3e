import Verif.Lemmas.EnginePace
import Verif.Props.C85_Pose
import Verif.Props.C81_Total

/-!
# C109: how fast the pen moves and how far the view is zoomed in does not matter to a brush that does not use it
-/

namespace Verif.Engine
open Verif.Map

section
variable {K R σ : Type} [Field K] [LinearOrder K] [IsStrictOrderedRing K] [FloorRing K] {T Z : Prop}

omit [FloorRing K] in
theorem scaleLaw {e : Env K R σ} (L : Laws e) : ScaleLaw e := fun _ a b h => hypot_scale L h.le a b

omit [IsStrictOrderedRing K] [FloorRing K] in
theorem Paced.sameButPace {b b' : Brush K R} (h : Paced T Z b b') : SameButPace b b' := by
  obtain ⟨-, -, p, -, rfl⟩ := h
  exact ⟨p.speed1, p.speed2, p.dx, p.dy, p.idle, p.total, p.zoom, p.dirX, p.dirY, p.angX, p.angY, rfl⟩

omit [IsStrictOrderedRing K] [FloorRing K] in
theorem paced_refl {b : Brush K R} (hi : IgnoresPace T Z b.settings) (h0 : T → b.skip ≤ 1 / 1000 ∧ b.st.dabsPerSecond = 0) :
    Paced T Z b b :=
  ⟨hi, ⟨fun h => (h0 h).1, fun h => (h0 h).2⟩,
    ⟨b.st.normSpeed1Slow, b.st.normSpeed2Slow, b.st.normDxSlow, b.st.normDySlow, b.idle, b.total, b.st.viewzoom,
      b.st.directionDx, b.st.directionDy, b.st.directionAngleDx, b.st.directionAngleDy⟩,
    ⟨.inl rfl, .inl rfl, .inl rfl, .inl rfl, .inl rfl⟩, rfl⟩

/-- **C109**, any number of events, on any surface with any random generator. The brush paints the same at any pace (`T`)
and under any zoom (`Z`), if it does not use them. -/
theorem pace_does_not_matter_to_strokes {e : Env K R σ} (L : Laws e) (fuel : Nat) {b : Brush K R}
    (hi : IgnoresPace T Z b.settings) (h0 : T → b.skip ≤ 1 / 1000 ∧ b.st.dabsPerSecond = 0) {ms ms' : List (Motion K)}
    (hm : List.Forall₂ (SameWay T Z) ms ms') (surf : σ) :
    Alike (fun r r' => r'.2 = r.2 ∧ SameButPace r.1 r'.1) (strokes e fuel b surf ms) (strokes e fuel b surf ms') := by
  have k := strokes_pace (e := e) (scaleLaw L) fuel hm surf (paced_refl hi h0)
  cases hs : strokes e fuel b surf ms <;> cases hs' : strokes e fuel b surf ms' <;> rw [hs, hs'] at k <;> cases k
  · exact .error _
  · rename_i h
    exact .ok ⟨h.1, h.2.sameButPace⟩

end
end Verif.Engine

namespace Verif.Painting
open Verif.Full Verif.Engine

section
variable {K R σ : Type} [Field K] [LinearOrder K] [IsStrictOrderedRing K] [FloorRing K] {T Z : Prop}

theorem block_pace {e : Engine.Env K R σ} (L : Laws e) {b : Build} {env : Dab.Env K} {trig : Symm.Trig K} {sch : Schedule} {fuel : Nat}
    {s s' : Studio K R} (hs : s'.surf = s.surf) (hn : s'.samples = s.samples) (hb : Paced T Z s.brush s'.brush) {bl bl' : Block K}
    (h : SameWays T Z bl bl') :
    Alike (fun r r' => r'.1 = r.1 ∧ r'.2.surf = r.2.surf ∧ r'.2.samples = r.2.samples ∧ Paced T Z r.2.brush r'.2.brush)
      (block e b env trig sch fuel s bl) (block e b env trig sch fuel s' bl') := by
  obtain ⟨h1, h2⟩ := h
  have e1 : bl'.alloc = bl.alloc := by rw [h1]
  have e2 : bl'.balloc = bl.balloc := by rw [h1]
  have e3 : bl'.order = bl.order := by rw [h1]
  have e4 : bl'.roi = bl.roi := by rw [h1]
  have e5 : bl'.setUp s.surf = bl.setUp s.surf := by unfold Block.setUp; rw [h1]
  unfold block
  rw [hs, hn, e1, e2, e3, e4, e5]
  refine Alike.bind (Alike.same (P := Eq) _ fun _ _ => rfl) ?_
  rintro s1 _ rfl
  refine Alike.bind (strokes_pace (e := onTiles e b env sch) (fun c x y h => scaleLaw L c x y h) fuel h2 _ hb) ?_
  rintro ⟨b1, w⟩ ⟨b1', w'⟩ ⟨q1, q2⟩
  dsimp only at q1 q2 ⊢
  subst q1
  refine Alike.bind (Alike.same (P := Eq) _ fun _ _ => rfl) ?_
  rintro s2 _ rfl
  refine Alike.bind (Alike.same (P := Eq) _ fun _ _ => rfl) ?_
  rintro t _ rfl
  exact .ok ⟨rfl, rfl, rfl, q2⟩

/-- **C109**. Two painting sessions on the tiled surface, along the same way but at another pace (`T`) or under another zoom
(`Z`), with a brush that does not use them: the same fault, or the same picture. -/
theorem pace_does_not_matter {e : Engine.Env K R σ} (L : Laws e) (b : Build) (env : Dab.Env K) (trig : Symm.Trig K)
    (sch : Schedule) (fuel : Nat) {bls bls' : List (Block K)} (hbl : List.Forall₂ (SameWays T Z) bls bls') {s : Studio K R}
    (hi : IgnoresPace T Z s.brush.settings) (h0 : T → s.brush.skip ≤ 1 / 1000 ∧ s.brush.st.dabsPerSecond = 0) :
    Alike (fun u u' => u'.surf = u.surf ∧ u'.samples = u.samples ∧ SameButPace u.brush u'.brush)
      (paint e b env trig sch fuel s bls) (paint e b env trig sch fuel s bls') := by
  have key : ∀ {s s' : Studio K R}, s'.surf = s.surf → s'.samples = s.samples → Paced T Z s.brush s'.brush →
      Alike (fun u u' => u'.surf = u.surf ∧ u'.samples = u.samples ∧ SameButPace u.brush u'.brush)
        (paint e b env trig sch fuel s bls) (paint e b env trig sch fuel s' bls') := by
    clear hi h0 s
    induction hbl with
    | nil =>
      intro s s' h1 h2 h3
      exact .ok ⟨h1, h2, h3.sameButPace⟩
    | cons hx _ ih =>
      intro s s' h1 h2 h3
      unfold paint
      refine Alike.bind (block_pace L h1 h2 h3 hx) ?_
      rintro r r' ⟨-, q1, q2, q3⟩
      exact ih q1 q2 q3
  exact key rfl rfl (paced_refl hi h0)

end

/-! ### Examples -/

section Demo
open Verif.Painting.Demo

/-- A brush with constant settings does not use the pace or the zoom, if the settings that have to be off are. -/
theorem plain_ignores : IgnoresPace True True (plainBrush (paintValues False)).settings := by
  refine ⟨fun _ => ⟨rfl, rfl⟩, ⟨rfl, ?_⟩, fun _ => ⟨rfl, ?_⟩, fun _ => ⟨?_, ?_⟩, fun _ _ _ _ => rfl, fun _ => ⟨rfl, ?_⟩, fun _ => ⟨rfl, ?_⟩⟩
  all_goals norm_num [plainBrush, paintValues]

/-- The same way at double speed in a view that shows everything three times as large. -/
noncomputable def hurried (bl : Block ℝ) : Block ℝ :=
  { bl with motions := bl.motions.map fun m => { m with dtime := 1 / 20, viewzoom := 3 } }

theorem penBlock_hurried (ps : List {p : ℝ × ℝ // rightDesk p.1 p.2}) : SameWays True True (penBlock ps) (hurried (penBlock ps)) := by
  refine ⟨rfl, ?_⟩
  show List.Forall₂ _ (penBlock ps).motions ((penBlock ps).motions.map _)
  rw [List.forall₂_map_right_iff, List.forall₂_same]
  intro m hm
  obtain ⟨p, -, rfl⟩ := List.mem_map.mp hm
  exact ⟨rfl, .inr trivial, ⟨by norm_num, by norm_num, by norm_num⟩, .inr trivial⟩

/-- Whatever is painted with a plain brush on the right half of the desk. -/
example (b : Build) (trig : Symm.Trig ℝ) (s : FSurf ℝ) (strokes : List (List {p : ℝ × ℝ // rightDesk p.1 p.2})) :
    Alike (fun u u' => u'.surf = u.surf ∧ u'.samples = u.samples ∧ SameButPace u.brush u'.brush)
      (paint canvasEnv b realDabEnv trig Demo.sch 1000 (⟨plainBrush (paintValues False), s, 0⟩ : Studio ℝ Unit) (strokes.map penBlock))
      (paint canvasEnv b realDabEnv trig Demo.sch 1000 (⟨plainBrush (paintValues False), s, 0⟩ : Studio ℝ Unit)
        (strokes.map fun ps => hurried (penBlock ps))) := by
  refine pace_does_not_matter (realEnv_laws _ _ _ _ (fun _ => ⟨le_refl _, one_pos⟩)) b realDabEnv trig Demo.sch 1000 ?_ plain_ignores ?_
  · rw [List.forall₂_map_left_iff, List.forall₂_map_right_iff, List.forall₂_same]
    exact fun ps _ => penBlock_hurried ps
  · exact fun _ => ⟨by norm_num [plainBrush], rfl⟩

/-- The events at double speed, in a view that shows everything three times as large. -/
def hasten (ms : List (Motion ℚ)) : List (Motion ℚ) := ms.map fun m => { m with dtime := 1 / 20, viewzoom := 3 }

/-- The dabs of the red brush stay where they are. -/
example : places red nearby = some [(-7 / 10, 25 / 2), (-7 / 10, 14), (-7 / 10, 31 / 2)] ∧ places red (hasten nearby) = places red nearby := by
  constructor <;> decide +kernel

/-- A brush that makes dabs by the second makes fewer. -/
example : (places (Engine.Demo.set red sDabsPerSecond 20) nearby).map List.length = some 5 ∧
    (places (Engine.Demo.set red sDabsPerSecond 20) (hasten nearby)).map List.length = some 4 := by
  constructor <;> decide +kernel

/-- And the pace matters to a brush with an offset by the speed and to one with slow tracking. -/
example : places (Engine.Demo.set red sOffsetBySpeed 1) (hasten nearby) ≠ places (Engine.Demo.set red sOffsetBySpeed 1) nearby ∧
    places slow (hasten nearby) ≠ places slow nearby := by
  constructor <;> decide +kernel

/-- A pause of more than five seconds is not the same pause: the brush starts over. -/
example : places red (nearby.map fun m => { m with dtime := 6 }) = some [] := by decide +kernel

end Demo
end Verif.Painting
