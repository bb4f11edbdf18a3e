import Verif.Lemmas.EngineHue
import Verif.Props.C82_Grouping

/-!
# C88: the colour of an eraser, or of a brush that only smudges, does not matter

A user who erases, or who smears paint with a brush that adds none, never looks at the colour that is chosen at that moment.
-/

namespace Verif.Painting
open Verif.Full Verif.Engine Verif.Dab

section
variable {K R σ : Type} [Field K] [LinearOrder K] [IsStrictOrderedRing K] [FloorRing K]

/-- Surfaces that look the same, or have run into the same fault. -/
def Muted (w w' : World K) : Prop := w'.samples = w.samples ∧ Alike (fun s s' => s'.mute = s.mute) w.surf w'.surf

theorem visible_mute {a a' : Args K} (h : SameDab a a') : visible a' = visible a := by
  have k := prepare_mute h
  unfold visible
  cases h1 : prepare a with
  | error f =>
    rw [h1] at k
    cases h2 : prepare a' with
    | error f' => rfl
    | ok o => rw [h2] at k; cases k
  | ok o =>
    rw [h1] at k
    cases h2 : prepare a' with
    | error f' => rw [h2] at k; cases k
    | ok o' =>
      rw [h2] at k
      have k := Except.ok.inj k
      cases o <;> cases o' <;> first | rfl | cases k

theorem getColor_mute {env : Dab.Env K} (hp : PowZero env.pow) {s s' : Surf (Op K) (Except Fault Tile)}
    (hs : s'.mapOps mute = s.mapOps mute) (x y r p : K) (order : List TileIndex → List TileIndex) (coin : TileIndex → Nat → Bool) :
    Alike (fun r r' => r'.1 = r.1 ∧ r'.2.mapOps mute = r.2.mapOps mute) (Sample.getColor env s x y r p order coin)
      (Sample.getColor env s' x y r p order coin) := by
  unfold Sample.getColor
  dsimp only
  by_cases hc : Sample.convertible x y (Sample.shape x y r env.rad1).radius = false
  · rw [if_pos hc, if_pos hc]; exact .error _
  · rw [if_neg hc, if_neg hc]
    refine Alike.bind (Alike.same (P := Eq) _ fun _ _ => rfl) ?_
    rintro n _ rfl
    have j := Alike.join _ (Surf.sample_map (mute_mute hp) (order (Sample.tilesFor x y (Sample.shape x y r env.rad1).radius)) s)
      (y := Surf.sample (kind env) s' (order (Sample.tilesFor x y (Sample.shape x y r env.rad1).radius))) (by
        rw [Surf.sample_map (mute_mute hp), hs])
    refine Alike.bind j ?_
    rintro ⟨vs, t⟩ ⟨vs', t'⟩ h
    dsimp only at h ⊢
    obtain ⟨rfl, h2⟩ := Prod.mk.inj h
    refine Alike.bind (Alike.same (P := Eq) _ fun _ _ => rfl) ?_
    rintro acc _ rfl
    refine Alike.bind (Alike.same (P := Eq) _ fun _ _ => rfl) ?_
    rintro res _ rfl
    exact .ok ⟨rfl, h2⟩

theorem onTiles_blind (e : Engine.Env K R σ) (he : PowZero e.pow) (b : Build) {env : Dab.Env K} (hd : PowZero env.pow)
    (sch : Schedule) : Blind (onTiles e b env sch) Muted := by
  refine ⟨he, ?_, ?_⟩
  · rintro ⟨w, n⟩ ⟨w', n'⟩ a a' ⟨h1, h2⟩ ha
    dsimp only at h1 h2
    subst h1
    show (draw b env _ a').1 = (draw b env _ a).1 ∧ Muted (draw b env _ a).2 (draw b env _ a').2
    unfold draw
    cases h2 with
    | error f => exact ⟨visible_mute ha, rfl, .error f⟩
    | ok h =>
      rename_i s s'
      dsimp only
      have k := drawDab_mute (b := b) hd h ha
      cases hx : Full.drawDab b env s a <;> cases hy : Full.drawDab b env s' a' <;> rw [hx, hy] at k <;> cases k
      · exact ⟨visible_mute ha, rfl, .error _⟩
      · rename_i k
        exact ⟨k.1, rfl, .ok k.2⟩
  · rintro ⟨w, n⟩ ⟨w', n'⟩ x y r p ⟨h1, h2⟩
    dsimp only at h1 h2
    subst h1
    show (getColor env sch _ x y r p).1 = (getColor env sch _ x y r p).1 ∧
      Muted (getColor env sch _ x y r p).2 (getColor env sch _ x y r p).2
    unfold getColor
    cases h2 with
    | error f => exact ⟨rfl, rfl, .error f⟩
    | ok h =>
      rename_i s s'
      dsimp only
      have k := getColor_mute hd (congrArg FSurf.surf h) (x : K) (y : K) r p (sch.order n') (sch.coin n')
      cases hx : Sample.getColor env s.surf (x : K) (y : K) r p (sch.order n') (sch.coin n') <;>
        cases hy : Sample.getColor env s'.surf (x : K) (y : K) r p (sch.order n') (sch.coin n') <;> rw [hx, hy] at k <;> cases k
      · exact ⟨rfl, rfl, .error _⟩
      · rename_i k
        refine ⟨?_, rfl, .ok ?_⟩
        · dsimp only; rw [k.1]
        · obtain ⟨p1, p2, p3, p4, p5, -⟩ := passes_mute h
          show ({ s' with surf := Surf.mapOps mute _ } : FSurf K) = { s with surf := Surf.mapOps mute _ }
          rw [k.2, p1, p2, p3, p4, p5]

theorem block_hue {e : Engine.Env K R σ} (he : PowZero e.pow) {b : Build} {env : Dab.Env K} (hd : PowZero env.pow)
    {trig : Symm.Trig K} {sch : Schedule} {fuel : Nat} {s s' : Studio K R} (hs : s'.surf.mute = s.surf.mute)
    (hn : s'.samples = s.samples) (hb : Hued s.brush s'.brush) (bl : Block K) :
    Alike (fun r r' => r'.1 = r.1 ∧ r'.2.surf.mute = r.2.surf.mute ∧ r'.2.samples = r.2.samples ∧ Hued r.2.brush r'.2.brush)
      (block e b env trig sch fuel s bl) (block e b env trig sch fuel s' bl) := by
  have e5 : (bl.setUp s'.surf).mute = (bl.setUp s.surf).mute := by
    unfold Block.setUp
    cases bl.symmetry with
    | none => exact hs
    | some v =>
      obtain ⟨active, cx, cy, angle, type, lines⟩ := v
      dsimp only
      rw [(passes_mute hs).1]
      generalize Symm.setPending s.surf.symm active cx cy angle type lines = z
      show ({ s'.surf.mute with symm := z } : FSurf K) = { s.surf.mute with symm := z }
      rw [hs]
  unfold block
  refine Alike.bind (beginAtomic_mute trig bl.alloc bl.balloc e5) ?_
  intro s1 s1' h1
  refine Alike.bind (strokes_hue (onTiles_blind e he b hd sch) fuel bl.motions (s := ⟨.ok s1, s.samples⟩)
    (s' := ⟨.ok s1', s'.samples⟩) ⟨hn, .ok h1⟩ hb) ?_
  rintro ⟨b1, w⟩ ⟨b1', w'⟩ ⟨⟨q0, q1⟩, q2⟩
  dsimp only at q0 q1 q2 ⊢
  refine Alike.bind q1 ?_
  intro s2 s2' h2
  refine Alike.bind (endAtomic_mute hd h2 bl.order bl.roi) ?_
  intro t t' h3
  exact .ok ⟨h3.1, h3.2, q0, q2⟩

theorem Hued.choose {b b' : Brush K R} (h : Hued b b') (c c' : K × K × K) :
    Hued { b with settings := recolour c.1 c.2.1 c.2.2 b.settings } { b' with settings := recolour c'.1 c'.2.1 c'.2.2 b'.settings } := by
  obtain ⟨p, m, rfl⟩ := h
  refine ⟨{ p with h := c'.1, s := c'.2.1, v := c'.2.2 }, ?_, ?_⟩
  · rcases m with ⟨m1, m2⟩ | m1
    · exact .inl ⟨m1, m2⟩
    · exact .inr ⟨m1.eraser, m1.colorize, m1.paint⟩
  · have key : ∀ s : Load.Brush K, recolour c'.1 c'.2.1 c'.2.2 (recolour p.h p.s p.v s) =
        recolour c'.1 c'.2.1 c'.2.2 (recolour c.1 c.2.1 c.2.2 s) := by
      intro s
      funext id
      unfold recolour
      dsimp only
      split_ifs <;> rfl
    show ({ b with settings := recolour c'.1 c'.2.1 c'.2.2 (recolour p.h p.s p.v b.settings), vals := tint p.w b.vals, mix := p.m } : Brush K R) = _
    rw [key]
    rfl

theorem Hued.same {b b' : Brush K R} (h : Hued b b') : SameButColour b b' := by
  obtain ⟨p, -, rfl⟩ := h
  refine ⟨rfl, ⟨_, _, _, rfl⟩, ?_⟩
  intro id h1 h2 h3
  show tint p.w b.vals id = b.vals id
  unfold tint
  rw [if_neg h1, if_neg h2, if_neg h3]

/-- **C88**. A session with an eraser, or with a brush that only smudges, with one colour or another chosen before every
block: the same fault, or the same picture, the same changed areas and the same brush but for the colour. -/
theorem colour_does_not_matter (e : Engine.Env K R σ) (he : PowZero e.pow) (b : Build) (env : Dab.Env K)
    (hd : PowZero env.pow) (trig : Symm.Trig K) (sch : Schedule) (fuel : Nat) {l l' : List ((K × K × K) × Block K)}
    (hl : l'.map Prod.snd = l.map Prod.snd) (s : Studio K R) (hc : Colourless s.brush.settings) :
    Alike (fun t t' => SameView t.surf t'.surf ∧ t'.samples = t.samples ∧ SameButColour t.brush t'.brush)
      (paintIn e b env trig sch fuel s l) (paintIn e b env trig sch fuel s l') := by
  have key : ∀ (l l' : List ((K × K × K) × Block K)), l'.map Prod.snd = l.map Prod.snd → ∀ {s s' : Studio K R},
      s'.surf.mute = s.surf.mute → s'.samples = s.samples → Hued s.brush s'.brush →
      Alike (fun t t' => t'.surf.mute = t.surf.mute ∧ t'.samples = t.samples ∧ Hued t.brush t'.brush)
        (paintIn e b env trig sch fuel s l) (paintIn e b env trig sch fuel s' l') := by
    intro l
    induction l with
    | nil =>
      intro l' h s s' h1 h2 h3
      cases l' with
      | nil => exact .ok ⟨h1, h2, h3⟩
      | cons _ _ => cases h
    | cons x l ih =>
      intro l' h s s' h1 h2 h3
      cases l' with
      | nil => cases h
      | cons x' l' =>
        obtain ⟨c, bl⟩ := x
        obtain ⟨c', bl'⟩ := x'
        simp only [List.map_cons, List.cons.injEq] at h
        obtain ⟨rfl, h⟩ := h
        unfold paintIn
        refine Alike.bind (block_hue he hd (s := s.choose c) (s' := s'.choose c') h1 h2 (Hued.choose h3 c c') bl') ?_
        rintro r r' ⟨-, q1, q2, q3⟩
        exact ih _ h q1 q2 q3
  have h0 : Hued s.brush s.brush := by
    refine ⟨⟨(s.brush.settings sColorH).base, (s.brush.settings sColorS).base, (s.brush.settings sColorV).base,
      s.brush.vals, s.brush.mix⟩, ?_, ?_⟩
    · rcases hc with hc | hc
      · exact .inl ⟨hc, rfl⟩
      · exact .inr hc
    · have e1 : recolour (s.brush.settings sColorH).base (s.brush.settings sColorS).base (s.brush.settings sColorV).base
          s.brush.settings = s.brush.settings := by
        funext id
        unfold recolour
        split_ifs with q1 q2 q3
        · rw [q1]
        · rw [q2]
        · rw [q3]
        · rfl
      have e2 : tint s.brush.vals s.brush.vals = s.brush.vals := by
        funext id
        unfold tint
        split_ifs <;> rfl
      unfold hueBrush
      dsimp only
      rw [e1, e2]
  have k := key l l' hl rfl rfl h0
  cases hx : paintIn e b env trig sch fuel s l <;> cases hy : paintIn e b env trig sch fuel s l' <;> rw [hx, hy] at k <;> cases k
  · exact .error _
  · rename_i k
    obtain ⟨p1, p2, p3, p4, p5, p6⟩ := passes_mute k.1
    exact .ok ⟨⟨p6, p1, p4, p2, p5, p3⟩, k.2.1, Hued.same k.2.2⟩

end

namespace Demo
open Verif.Blend

/-- The arithmetic of the demonstration, with a power function that gives 1 for the exponent 0. -/
def powEnv : Engine.Env ℚ Nat (List (Args ℚ)) := { Engine.Demo.env with pow := fun a b => if b = 0 then 1 else a }

/-- Some pixels after a session with a colour for every block, on a canvas of one colour. -/
def dyed (br : Brush ℚ Nat) (p : Px) (l : List ((ℚ × ℚ × ℚ) × Block ℚ)) (ps : List (Int × Int)) :
    Option (List (Option Px) × Nat) :=
  match init .normal demoTrig (fun _ => true) (fun _ => Symm.unit) 0 (uniform p) with
  | .error _ => none
  | .ok s0 =>
    match paintIn powEnv .normal demoEnv demoTrig sch 100 ⟨br, s0, 0⟩ l with
    | .error _ => none
    | .ok s => some (ps.map fun q => (pixel s.surf.surf.canvas q.1 q.2).toOption, s.samples)

/-- A brush that only smudges. -/
def finger : Brush ℚ Nat := Engine.Demo.set smudging sSmudge 1

theorem rubber_colourless : Colourless rubber.settings := by
  refine .inr ⟨fun i => rfl, fun i => ?_, ?_⟩
  · have h : Map.calculate (rubber.settings sColorize) i = (0 : ℚ) := rfl
    rw [h]
  · exact .inl rfl

theorem finger_colourless : Colourless finger.settings := .inl fun i => le_refl (1 : ℚ)

/-- Two blocks, and colours for them. -/
def inRed : List ((ℚ × ℚ × ℚ) × Block ℚ) := [((0, 1, 1), strokeBlock (events.take 2)), ((0, 1, 1), strokeBlock (events.drop 2))]
def inBlue : List ((ℚ × ℚ × ℚ) × Block ℚ) :=
  [((2 / 3, 1, 1), strokeBlock (events.take 2)), ((1 / 3, 1, 1 / 2), strokeBlock (events.drop 2))]

example (s : Studio ℚ Nat) (h : s.brush = rubber ∨ s.brush = finger) :
    Alike (fun t t' => SameView t.surf t'.surf ∧ t'.samples = t.samples ∧ SameButColour t.brush t'.brush)
      (paintIn powEnv .normal demoEnv demoTrig sch 100 s inRed)
      (paintIn powEnv .normal demoEnv demoTrig sch 100 s inBlue) := by
  refine colour_does_not_matter powEnv (fun _ _ => rfl) _ demoEnv (fun _ _ => rfl) _ _ _ (l := inRed) (l' := inBlue) rfl s ?_
  rcases h with h | h <;> rw [h]
  · exact rubber_colourless
  · exact finger_colourless

/-- What the eraser leaves of a red canvas, whatever its colour. -/
example : dyed rubber ⟨16384, 0, 0, 16384⟩ inBlue [(63, 10), (66, 10), (63, 30)] =
    some ([some ⟨3, 0, 0, 3⟩, some ⟨262, 0, 0, 262⟩, some ⟨16384, 0, 0, 16384⟩], 0) := by
  decide +kernel

/-- **C88** The colour matters to an eraser that also colorizes: the canvas stays opaque and takes on the colour. -/
theorem colorizing_eraser_shows_its_colour :
    dyed (Engine.Demo.set rubber sColorize 1) ⟨16384, 0, 0, 16384⟩ inRed [(63, 10)] = some ([some ⟨16384, 0, 0, 16384⟩], 0) ∧
    dyed (Engine.Demo.set rubber sColorize 1) ⟨16384, 0, 0, 16384⟩ inBlue [(63, 10)] = some ([some ⟨3, 4866, 0, 16384⟩], 0) := by
  constructor <;> decide +kernel

/-- And to a brush that smudges by nine tenths. -/
example : dyed (Engine.Demo.set finger sSmudge (9 / 10)) ⟨16384, 0, 0, 16384⟩ inRed [(63, 10)] = some ([some ⟨18741, 0, 0, 18741⟩], 3) ∧
    dyed (Engine.Demo.set finger sSmudge (9 / 10)) ⟨16384, 0, 0, 16384⟩ inBlue [(63, 10)] = some ([some ⟨14017, 2359, 0, 18741⟩], 3) := by
  constructor <;> decide +kernel

end Demo
end Verif.Painting
