import Verif.Lemmas.PaintingSlide
import Verif.Props.C64_Painting

/-!
# C80: a stroke looks the same wherever on the canvas it is painted

In exact arithmetic, for shifts by whole pixels.
-/

namespace Verif.Engine
variable {K R σ : Type} [Field K] [LinearOrder K] [IsStrictOrderedRing K] [FloorRing K]

/-- **C80**, the dabs: a brush that does not sample the canvas and does not use the grid map, somewhere else or about to
start a new stroke there, makes the same dabs somewhere else, if whether a dab changes the surface does not depend on the
surface or on the place of the dab. The list `l` is what was drawn before. -/
theorem dabs_everywhere_partial {e : Env K R σ} {u w : Int} (he : ∀ s s' a, (e.draw s' (slideDab (u : K) (w : K) a)).1 = (e.draw s a).1)
    (fuel : Nat) {b b' : Brush K R} (hg : NoGridmap b.settings) (hn : NeverSamples b.settings)
    (hb : Elsewhere (u : K) (w : K) b b' ∨ (b' = b ∧ Fresh b)) (ms : List (Motion K))
    (hm : ∀ m ∈ ms, m.Near ∧ (m.slide (u : K) (w : K)).Near) (s s' : σ) (l : List (Dab.Args K))
    {r r' : Brush K R × σ × List (Dab.Args K)} (h : strokes (recordDabs e) fuel b (s, l) ms = .ok r)
    (h' : strokes (recordDabs e) fuel b' (s', l.map (slideDab (u : K) (w : K))) (ms.map (Motion.slide (u : K) (w : K))) = .ok r') :
    r'.2.2 = r.2.2.map (slideDab (u : K) (w : K)) := by
  have hP : Draws (recordDabs e) (u : K) (w : K) (fun p p' => p'.2 = p.2.map (slideDab (u : K) (w : K))) := by
    intro p p' a q
    refine ⟨he p.1 p'.1 a, ?_⟩
    show p'.2 ++ [slideDab (u : K) (w : K) a] = (p.2 ++ [a]).map (slideDab (u : K) (w : K))
    rw [q, List.map_append]
    rfl
  have hb' : Aligned (u : K) (w : K) b b' := by
    rcases hb with q | ⟨q, q'⟩
    · exact .inl ⟨⟨hg, hn⟩, q⟩
    · exact .inr ⟨q, ⟨hg, hn⟩, q'⟩
  have k := strokes_slide hP fuel ms hb' (surf := (s, l)) (surf' := (s', l.map (slideDab (u : K) (w : K)))) rfl hm
  rw [h, h'] at k
  cases k with
  | ok k => exact k.1

/-- And there is a fault in one place exactly if there is one in the other. -/
theorem fault_everywhere_partial {e : Env K R σ} {u w : Int} (he : ∀ s s' a, (e.draw s' (slideDab (u : K) (w : K) a)).1 = (e.draw s a).1)
    (fuel : Nat) {b b' : Brush K R} (hg : NoGridmap b.settings) (hn : NeverSamples b.settings)
    (hb : Elsewhere (u : K) (w : K) b b' ∨ (b' = b ∧ Fresh b)) (ms : List (Motion K))
    (hm : ∀ m ∈ ms, m.Near ∧ (m.slide (u : K) (w : K)).Near) (s s' : σ) (f : Fault) :
    strokes e fuel b s ms = .error f ↔ strokes e fuel b' s' (ms.map (Motion.slide (u : K) (w : K))) = .error f := by
  have hb' : Aligned (u : K) (w : K) b b' := by
    rcases hb with q | ⟨q, q'⟩
    · exact .inl ⟨⟨hg, hn⟩, q⟩
    · exact .inr ⟨q, ⟨hg, hn⟩, q'⟩
  have k := strokes_slide (e := e) (P := fun _ _ => True) (fun s s' a _ => ⟨he s s' a, trivial⟩) fuel ms hb'
    (surf := s) (surf' := s') trivial hm
  cases hs : strokes e fuel b s ms <;> cases hs' : strokes e fuel b' s' (ms.map (Motion.slide (u : K) (w : K))) <;>
    rw [hs, hs'] at k <;> cases k
  · rfl
  · exact ⟨fun q => (nomatch q), fun q => (nomatch q)⟩

end Verif.Engine

namespace Verif.Painting
open Verif.Full Verif.Dab Verif.Engine Verif.Blend Verif.Map Verif.Mask

section
variable {K R σ : Type} [Field K] [LinearOrder K] [IsStrictOrderedRing K] [FloorRing K]

omit [IsStrictOrderedRing K] in
theorem endAtomic_symm {env : Dab.Env K} {order : List TileIndex → List TileIndex} {roi : Option (Int × (Int → Rect))}
    {s s' : FSurf K} {rs : List Rect} (h : endAtomic env order roi s = .ok (rs, s')) : s'.symm.active = s.symm.active := by
  unfold endAtomic at h
  obtain ⟨sf, -, h⟩ := except_bind_ok h
  cases hr : roi with
  | none =>
    rw [hr] at h
    exact (congrArg (fun p => p.2.symm.active) (Except.ok.inj h)).symm
  | some p =>
    obtain ⟨n, old⟩ := p
    rw [hr] at h
    obtain ⟨rs, -, h⟩ := except_bind_ok h
    exact (congrArg (fun p => p.2.symm.active) (Except.ok.inj h)).symm

/-- One block. -/
theorem block_same {e : Engine.Env K R σ} {b : Build} {env : Dab.Env K} (he : env.Valid) {trig : Symm.Trig K} {sch : Schedule}
    {fuel : Nat} {u w : Int} {s s' t t' : Studio K R} {bl bl' : Block K} {rs rs' : List Rect}
    (hs : Sound b env trig s.surf s.surf.surf.canvas) (hs' : Sound b env trig s'.surf s'.surf.surf.canvas)
    (hb : bl.Ok) (hb' : bl'.Ok) (hbl : SameBlock u w bl bl') (hm : ∀ m ∈ bl.motions, m.Near ∧ (m.slide (u : K) (w : K)).Near)
    (ha : s.surf.symm.active = false) (ha' : s'.surf.symm.active = false) (hbr : Aligned (u : K) (w : K) s.brush s'.brush)
    (hc : SamePicture u w s.surf.surf.canvas s'.surf.surf.canvas)
    (h : block e b env trig sch fuel s bl = .ok (rs, t)) (h' : block e b env trig sch fuel s' bl' = .ok (rs', t')) :
    Sound b env trig t.surf t.surf.surf.canvas ∧ Sound b env trig t'.surf t'.surf.surf.canvas ∧
      t.surf.symm.active = false ∧ t'.surf.symm.active = false ∧ Aligned (u : K) (w : K) t.brush t'.brush ∧
      SamePicture u w t.surf.surf.canvas t'.surf.surf.canvas := by
  have up : bl.setUp s.surf = s.surf := by unfold Block.setUp; rw [hbl.plain]
  have up' : bl'.setUp s'.surf = s'.surf := by unfold Block.setUp; rw [hbl.plain']
  unfold block at h h'
  rw [up] at h
  rw [up'] at h'
  obtain ⟨s1, h1, h⟩ := except_bind_ok h
  obtain ⟨⟨br, v⟩, h2, h⟩ := except_bind_ok h
  obtain ⟨s2, h3, h⟩ := except_bind_ok h
  obtain ⟨⟨_, s3⟩, h4, h⟩ := except_bind_ok h
  cases h
  obtain ⟨s1', h1', h'⟩ := except_bind_ok h'
  obtain ⟨⟨br', v'⟩, h2', h'⟩ := except_bind_ok h'
  obtain ⟨s2', h3', h'⟩ := except_bind_ok h'
  obtain ⟨⟨_, s3'⟩, h4', h'⟩ := except_bind_ok h'
  cases h'
  have act : ∀ {al bal} {s s1 : FSurf K} {c : Canvas}, beginAtomic trig al bal s = .ok s1 → Sound b env trig s c →
      s.symm.active = false → s1.symm.active = false ∧ Sound b env trig s1 c := by
    intro al bal s s1 c h hs ha
    obtain ⟨hs1, -, -, hu⟩ := beginAtomic_sound h hs
    obtain ⟨d', hu', -, -, q⟩ := Symm.update_inv trig al hs.symm
    rw [hu] at hu'
    cases hu'
    exact ⟨q.trans ha, hs1⟩
  obtain ⟨a1, g1⟩ := act h1 hs ha
  obtain ⟨a1', g1'⟩ := act h1' hs' ha'
  have k0 : SameWorld b env trig u w (⟨.ok s1, s.samples⟩ : World K) ⟨.ok s1', s'.samples⟩ := by
    intro t t' ht ht'
    cases ht; cases ht'
    exact ⟨a1, a1', _, _, g1, g1', hc⟩
  have k := strokes_slide (draws_same e b he trig sch u w) fuel bl.motions hbr k0 hm
  rw [← hbl.motions, h2, h2'] at k
  cases k with
  | ok k =>
    obtain ⟨k1, k2⟩ := k
    obtain ⟨a2, a2', c, c', g2, g2', q⟩ := k1 s2 s2' h3 h3'
    obtain ⟨g3, e3, -⟩ := endAtomic_sound hb.order h4 g2
    obtain ⟨g3', e3', -⟩ := endAtomic_sound hb'.order h4' g2'
    dsimp only
    rw [e3, e3']
    exact ⟨g3, g3', (endAtomic_symm h4).trans a2, (endAtomic_symm h4').trans a2', k2, q⟩

/-- **C80**. Two painting sessions, the second one the first one `u` pixels to the right and `w` pixels down, starting from
pictures that are the same up to this shift, without symmetry, with a brush that does not sample the canvas and does not use
the grid map: if both end, every pixel that is defined in both pictures has the same colour. The brush is new, or it is
somewhere else by the same shift. -/
theorem stroke_looks_the_same_everywhere_partial {e : Engine.Env K R σ} {b : Build} {env : Dab.Env K} (he : env.Valid)
    {trig : Symm.Trig K} {sch : Schedule} {fuel : Nat} {u w : Int} {bls bls' : List (Block K)}
    (hbl : List.Forall₂ (SameBlock u w) bls bls') (hok : ∀ bl ∈ bls, bl.Ok) (hok' : ∀ bl ∈ bls', bl.Ok)
    (hm : ∀ bl ∈ bls, ∀ m ∈ bl.motions, m.Near ∧ (m.slide (u : K) (w : K)).Near)
    {s s' t t' : Studio K R} (hs : s.Fine b env trig) (hs' : s'.Fine b env trig)
    (ha : s.surf.symm.active = false) (ha' : s'.surf.symm.active = false)
    (hg : NoGridmap s.brush.settings) (hn : NeverSamples s.brush.settings)
    (hbr : Elsewhere (u : K) (w : K) s.brush s'.brush ∨ (s'.brush = s.brush ∧ Fresh s.brush))
    (hc : SamePicture u w s.surf.surf.canvas s'.surf.surf.canvas)
    (h : paint e b env trig sch fuel s bls = .ok t) (h' : paint e b env trig sch fuel s' bls' = .ok t') :
    SamePicture u w t.surf.surf.canvas t'.surf.surf.canvas := by
  have hbr' : Aligned (u : K) (w : K) s.brush s'.brush := by
    rcases hbr with q | ⟨q, q'⟩
    · exact .inl ⟨⟨hg, hn⟩, q⟩
    · exact .inr ⟨q, ⟨hg, hn⟩, q'⟩
  have k := hs.surf
  have k' := hs'.surf
  clear hs hs' hg hn hbr
  induction hbl generalizing s s' with
  | nil => cases h; cases h'; exact hc
  | cons hx hl ih =>
    unfold paint at h h'
    obtain ⟨⟨rs, s1⟩, h1, h⟩ := except_bind_ok h
    obtain ⟨⟨rs', s1'⟩, h1', h'⟩ := except_bind_ok h'
    obtain ⟨q1, q2, q3, q4, q5, q6⟩ := block_same he k k' (hok _ List.mem_cons_self) (hok' _ List.mem_cons_self) hx
      (hm _ List.mem_cons_self) ha ha' hbr' hc h1 h1'
    exact ih (fun _ q => hok _ (List.mem_cons_of_mem _ q)) (fun _ q => hok' _ (List.mem_cons_of_mem _ q))
      (fun _ q => hm _ (List.mem_cons_of_mem _ q)) q3 q4 q6 h h' q5 q1 q2

end

/-! ### Examples -/

section Demo
open Verif.Painting.Demo

theorem red_moves : NoGridmap red.settings ∧ NeverSamples red.settings ∧ Fresh red := by
  refine ⟨fun id i j _ => by rw [red_value, red_value], ?_, rfl, rfl, by decide +kernel⟩
  intro i
  rw [red_value, red_value]
  decide +kernel

/-- The stroke of the demo, and 1000 pixels farther to the left and 5 up. -/
theorem events_near : ∀ m ∈ events, m.Near ∧ (m.slide ((-1000 : Int) : ℚ) ((-5 : Int) : ℚ)).Near := by
  intro m hm
  simp only [events, List.mem_cons, List.not_mem_nil, or_false] at hm
  rcases hm with rfl | rfl | rfl <;>
    (refine ⟨⟨?_, ?_⟩, ?_, ?_⟩ <;>
      simp only [Motion.slide, Engine.Demo.motion, Flt.slide, Flt.Near] <;> norm_num [abs_lt])

example {s t t' : Studio ℚ Nat} (h0 : studio red ⟨0, 0, 0, 0⟩ = .ok s)
    (h : paint Engine.Demo.env .normal demoEnv demoTrig sch 100 s [strokeBlock events] = .ok t)
    (h' : paint Engine.Demo.env .normal demoEnv demoTrig sch 100 s
      [strokeBlock (events.map (Motion.slide ((-1000 : Int) : ℚ) ((-5 : Int) : ℚ)))] = .ok t') :
    SamePicture (-1000) (-5) t.surf.surf.canvas t'.surf.surf.canvas := by
  obtain ⟨s1, h1, hf, hb, hcv⟩ := studio_fine red_underway ⟨0, 0, 0, 0⟩
  rw [h0] at h1
  cases h1
  have ha : s.surf.symm.active = false := by
    unfold studio at h0
    have : (studio red ⟨0, 0, 0, 0⟩).toOption.map (fun s => s.surf.symm.active) = some false := by decide +kernel
    unfold studio at this
    rw [h0] at this
    exact Option.some.inj this
  obtain ⟨r1, r2, r3⟩ := red_moves
  rw [← hb] at r1 r2 r3
  refine stroke_looks_the_same_everywhere_partial demoEnv_valid (.cons ⟨rfl, rfl, rfl⟩ .nil) ?_ ?_ ?_ hf hf ha ha r1 r2
    (.inr ⟨rfl, r3⟩) ?_ h h'
  · intro bl q
    rw [List.mem_singleton.mp q]; exact strokeBlock_ok _
  · intro bl q
    rw [List.mem_singleton.mp q]; exact strokeBlock_ok _
  · intro bl q
    rw [List.mem_singleton.mp q]; exact events_near
  · intro X Y p p' hp hp'
    rw [hcv, uniform_pixel] at hp hp'
    cases hp; cases hp'; rfl

/-- What the first and the second session leave behind. -/
example : observe red ⟨0, 0, 0, 0⟩ events [(63, 10), (66, 10), (63, 30)] =
    some ([⟨58, 5, 12, 10⟩], [some ⟨32760, 0, 0, 32760⟩, some ⟨32243, 0, 0, 32243⟩, some ⟨0, 0, 0, 0⟩]) := by
  decide +kernel

example : observe red ⟨0, 0, 0, 0⟩ (events.map (Motion.slide (-1000) (-5))) [(-937, 5), (-934, 5), (-937, 25)] =
    some ([⟨-942, 0, 12, 10⟩], [some ⟨32760, 0, 0, 32760⟩, some ⟨32243, 0, 0, 32243⟩, some ⟨0, 0, 0, 0⟩]) := by
  decide +kernel

/-! ### Where it fails -/

/-- A surface that is a picture with one colour per pixel, and writes down the dabs. -/
def pictures : Engine.Env ℚ Nat ((Int → Int → Color.Rgba ℚ) × List (Args ℚ)) :=
  Engine.Demo.env.on (fun s a => (decide (a.opaque' > 0), (s.1, s.2 ++ [a]))) (fun s x y _ _ => (s.1 x y, s))

/-- White to the right of 0, black to the left. -/
def edge (X _Y : Int) : Color.Rgba ℚ := if 0 ≤ X then ⟨1, 1, 1, 1⟩ else ⟨0, 0, 0, 1⟩

/-- A brush that only spreads the colour it finds. -/
def smudger : Brush ℚ Nat := Engine.Demo.set (Engine.Demo.set red sSmudge 1) sSmudgeLength 0

/-- Events just left of the edge. -/
def nearby : List (Motion ℚ) :=
  [Engine.Demo.motion (-7 / 10) 10 (1 / 2) (1 / 10), Engine.Demo.motion (-7 / 10) 11 (1 / 2) (1 / 10),
    Engine.Demo.motion (-7 / 10) 16 (1 / 2) (1 / 10)]

/-- The colours of the dabs. -/
def colours (pic : Int → Int → Color.Rgba ℚ) (b : Brush ℚ Nat) (ms : List (Motion ℚ)) : Option (List (ℚ × ℚ × ℚ × ℚ)) :=
  Engine.Demo.look (fun r => r.2.2.map fun a => (a.colorR, a.colorG, a.colorB, a.colorA))
    (strokes pictures 100 b (pic, []) ms)

theorem smudger_value (id : Nat) (i : Nat → ℚ) : calculate (smudger.settings id) i = (smudger.settings id).base := by
  show calculate (if id = sSmudgeLength then Engine.Demo.constant 0 else if id = sSmudge then Engine.Demo.constant 1 else
    red.settings id) i = (if id = sSmudgeLength then Engine.Demo.constant 0 else if id = sSmudge then Engine.Demo.constant 1 else
    red.settings id).base
  split_ifs
  · rfl
  · rfl
  · exact red_value id i

/-- A brush that smudges does not look the same everywhere: the place where the canvas is sampled is rounded toward zero, so
left of (or above) the origin it is the next pixel. The same stroke on the same picture, both one pixel to the right, has
other colours. -/
theorem smudging_is_not_the_same_everywhere : ∃ (b : Brush ℚ Nat) (pic : Int → Int → Color.Rgba ℚ) (ms : List (Motion ℚ)),
    NoGridmap b.settings ∧ Fresh b ∧ (∀ m ∈ ms, m.Near ∧ (m.slide 1 0).Near) ∧
    colours pic b ms = some [(1, 1, 1, 1), (1, 1, 1, 1), (1, 1, 1, 1)] ∧
    colours (fun X Y => pic (X - 1) Y) b (ms.map (Motion.slide 1 0)) = some [(0, 0, 0, 1), (0, 0, 0, 1), (0, 0, 0, 1)] := by
  refine ⟨smudger, edge, nearby, fun id i j _ => by rw [smudger_value, smudger_value], ⟨rfl, rfl, by decide +kernel⟩, ?_,
    by decide +kernel, by decide +kernel⟩
  intro m hm
  simp only [nearby, List.mem_cons, List.not_mem_nil, or_false] at hm
  rcases hm with rfl | rfl | rfl <;>
    (refine ⟨⟨?_, ?_⟩, ?_, ?_⟩ <;>
      simp only [Motion.slide, Engine.Demo.motion, Flt.slide, Flt.Near] <;> norm_num [abs_lt])

/-- The positions of the dabs. -/
def places (b : Brush ℚ Nat) (ms : List (Motion ℚ)) : Option (List (ℚ × ℚ)) :=
  Engine.Demo.look (fun r => r.2.map fun a => (a.x, a.y)) (strokes Engine.Demo.env 100 b [] ms)

/-- With slow tracking a new brush starts between the origin and the pointer. -/
def slow : Brush ℚ Nat := Engine.Demo.set red sSlowTracking 1

/-- So its stroke is not the same everywhere: the first dab of the stroke 100 pixels to the right is not 100 pixels to
the right. -/
theorem slow_tracking_is_not_the_same_everywhere :
    (places slow nearby).map (fun l => l.head?) = some (some (-1054221 / 1514920, 2983 / 242)) ∧
    (places slow (nearby.map (Motion.slide 100 0))).map (fun l => l.head?) = some (some (151407675 / 1533796, 4719485 / 383449)) ∧
    (-1054221 / 1514920 + 100 : ℚ) ≠ 151407675 / 1533796 :=
  ⟨by decide +kernel, by decide +kernel, by norm_num⟩

/-- Without it the dabs are where they should be. -/
example : places red nearby = some [(-7 / 10, 25 / 2), (-7 / 10, 14), (-7 / 10, 31 / 2)] ∧
    places red (nearby.map (Motion.slide 1 0)) = some [(3 / 10, 25 / 2), (3 / 10, 14), (3 / 10, 31 / 2)] :=
  ⟨by decide +kernel, by decide +kernel⟩

end Demo
end Verif.Painting
