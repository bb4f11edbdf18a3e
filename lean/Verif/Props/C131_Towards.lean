import Verif.Props.C94_Stencil
import Verif.Props.C130_Nearer

/-!
# C131: plain paint moves opaque pixels towards the colour of the brush

Where a picture is opaque it stays opaque, whatever is painted plainly on it. Every channel moves towards the colour of the brush and not past it.
So painting with a colour leaves pixels that have this colour already exactly as they are.
-/

namespace Verif.Painting
open Verif.Full Verif.Dab Verif.Engine Verif.Blend Verif.Symm Verif.Map Verif.Mask

/-! ### Specification -/

/-- Every opaque pixel of the first picture is opaque in the second. There every channel lies between the old value and the colour. -/
def MovedTowards (col : Blend.Color) (c c' : Canvas) : Prop :=
  ∀ X Y p, pixel c X Y = .ok p → p.a = 32768 → ∃ p', pixel c' X Y = .ok p' ∧
    p'.a = 32768 ∧ LiesBetween col.r p.r p'.r ∧ LiesBetween col.g p.g p'.g ∧ LiesBetween col.b p.b p'.b

section
variable {K R σ : Type} [Field K] [LinearOrder K] [IsStrictOrderedRing K] [FloorRing K]

/-! ### Dabs -/

theorem pixelDab_approaches {col : Blend.Color} {env : Dab.Env K} (he : env.Valid) {a : Args K} (ha : PlainDabOf col a) {X Y : Int} {p p' q : Px}
    (hc : DrawnNear col p p') (hq : pixelDab env X Y p' a = .ok q) : DrawnNear col p q := by
  obtain ⟨ha, hcol⟩ := ha
  cases hp : prepare a with
  | error f =>
    unfold pixelDab at hq
    rw [hp] at hq
    cases hq
    exact hc
  | ok o =>
    cases o with
    | none =>
      unfold pixelDab at hq
      rw [hp] at hq
      cases hq
      exact hc
    | some op =>
      obtain ⟨j1, j2, j3, j4⟩ := pixelDab_plain he ha hp X Y p'
      rw [prepare_colour hp, hcol] at j1 j4
      rw [j1] at hq
      rw [← Except.ok.inj hq]
      split_ifs
      · exact hc
      · exact normal_nears j4 j2 j3 hc

theorem dabs_approach {col : Blend.Color} {env : Dab.Env K} (he : env.Valid) (l : List (Args K)) (hl : ∀ a ∈ l, PlainDabOf col a) {X Y : Int} {p : Px}
    {c : Canvas} (hc : ∀ q, pixel c X Y = .ok q → DrawnNear col p q) :
    ∀ q, pixel (l.foldl (Spec.Now.dabAt env) c) X Y = .ok q → DrawnNear col p q := by
  induction l generalizing c with
  | nil => exact hc
  | cons a l ih =>
    refine ih (fun a q => hl a (List.mem_cons_of_mem _ q)) fun q hq => ?_
    obtain ⟨p', hp', h1⟩ := dabAt_pixel he hq
    exact pixelDab_approaches he (hl a List.mem_cons_self) (hc p' hp') h1

theorem stamps_approach {col : Blend.Color} {env : Dab.Env K} (he : env.Valid) (d : Symm.Data K) (l : List (Args K)) (hl : ∀ a ∈ l, PlainDabOf col a)
    {X Y : Int} {p : Px} {c : Canvas} (hc : ∀ q, pixel c X Y = .ok q → DrawnNear col p q) :
    ∀ q, pixel (l.foldl (stamp env d) c) X Y = .ok q → DrawnNear col p q := by
  induction l generalizing c with
  | nil => exact hc
  | cons a l ih =>
    refine ih (fun a q => hl a (List.mem_cons_of_mem _ q)) ?_
    unfold stamp
    split_ifs
    · exact dabs_approach he _ (copies_like (Q := PlainDabOf col) (fun _ _ _ _ w => ⟨⟨w.1.1, w.1.2, w.1.3, w.1.4, w.1.5⟩, w.2⟩) d
        (hl a List.mem_cons_self)) hc
    · exact hc

/-! ### The theorems -/

/-- **C131** A session in any blocks on any valid canvas, with a brush that paints plainly and in its own colour: opaque pixels stay opaque, and
every channel of them moves towards that colour and not past it. -/
theorem plain_paint_moves_towards {e : Engine.Env K R σ} {b : Build} {env : Dab.Env K} (he : env.Valid) {trig : Trig K}
    {sch : Schedule} {fuel : Nat} {s t : Studio K R} (hf : s.Fine b env trig) (hd : InForce s.surf.symm)
    (hc : CanvasValid s.surf.surf.canvas) (hp : PaintsPlainly s.brush.settings) (hpc : PlainColour s.brush.settings)
    {bls : List (Block K)} (hq : Unswerving bls) (h : paint e b env trig sch fuel s bls = .ok t) :
    MovedTowards (onCanvas (chosenColour s.brush.settings)) s.surf.surf.canvas t.surf.surf.canvas := by
  have hc' : CanvasValid t.surf.surf.canvas := painting_keeps_picture_valid he bls hf
    (fun bl w => ⟨(hq bl w).2, by rw [(hq bl w).1]; intros; contradiction⟩) ⟨hp.colorize, hp.posterize, .inl hp.lock⟩ hc h
  have hn := paint_now bls hf.surf hd.agree hq h
  unfold Spec.Now.paint at hn
  obtain ⟨l, hl⟩ := strokes_recorded _ fuel _ s.brush _ [] hn
  have k := (session_keeps (stamped_invariant e env s.surf.symm sch s.surf.surf.canvas) (fun _ => True) (fun _ _ _ _ => trivial)
    (fun _ _ _ _ => trivial) (fun _ _ => trivial) _ (fun _ _ => trivial) hf.brush rfl hl).1
  have hh : ∀ a ∈ l, PlainDabOf (onCanvas (chosenColour s.brush.settings)) a := by
    intro a ha
    obtain ⟨hcol, i1, hA⟩ := paints_own_colour _ _ hf.brush hpc _ hl a ha
    obtain ⟨i2, q1, q2, q3, q4, q5, q6⟩ := passes_settings_on _ _ hf.brush _ hl a ha
    refine ⟨⟨q1 ▸ hp.lock i2, q2 ▸ hp.colorize i2, q3 ▸ hp.posterize i2, q5 ▸ hp.pigment i2, ?_⟩, ?_⟩
    · rw [hA, hp.eraser, sub_zero]
    · rw [hcol]
  dsimp only at k
  intro X Y p h1 h2
  obtain ⟨p0, h0, v0⟩ := hc X Y
  rw [h1] at h0
  cases h0
  obtain ⟨p', h', -⟩ := hc' X Y
  refine ⟨p', h', ?_⟩
  rw [k] at h'
  have refl' : ∀ k x, LiesBetween k x x := fun k x => (le_total x k).imp (fun h => ⟨le_refl _, h⟩) fun h => ⟨h, le_refl _⟩
  refine (stamps_approach he s.surf.symm l hh (p := p) (fun q w => ?_) p' h').2.2.2
  rw [h1] at w
  cases w
  exact ⟨v0, v0, h2, h2, refl' _ _, refl' _ _, refl' _ _⟩

/-- **C131** Pixels that have the colour of the brush and are opaque are not changed. -/
theorem own_colour_changes_nothing {e : Engine.Env K R σ} {b : Build} {env : Dab.Env K} (he : env.Valid) {trig : Trig K}
    {sch : Schedule} {fuel : Nat} {s t : Studio K R} (hf : s.Fine b env trig) (hd : InForce s.surf.symm)
    (hc : CanvasValid s.surf.surf.canvas) (hp : PaintsPlainly s.brush.settings) (hpc : PlainColour s.brush.settings)
    {bls : List (Block K)} (hq : Unswerving bls) (h : paint e b env trig sch fuel s bls = .ok t) {X Y : Int}
    (hx : pixel s.surf.surf.canvas X Y = .ok ⟨channel (chosenColour s.brush.settings).r, channel (chosenColour s.brush.settings).g,
      channel (chosenColour s.brush.settings).b, 32768⟩) :
    pixel t.surf.surf.canvas X Y = pixel s.surf.surf.canvas X Y := by
  obtain ⟨⟨r, g, b', a⟩, h1, h2, h3, h4, h5⟩ := plain_paint_moves_towards he hf hd hc hp hpc hq h X Y _ hx rfl
  have key : ∀ {k x}, LiesBetween k k x → x = k := fun w => w.elim (fun w => le_antisymm w.2 w.1) fun w => le_antisymm w.2 w.1
  dsimp only [onCanvas] at h2 h3 h4 h5
  rw [h1, hx, h2, key h3, key h4, key h5]

end

namespace Demo

/-- The theorem applied: whatever is painted with the red brush on a canvas of one opaque colour. -/
example {s t : Studio ℚ Nat} (h0 : studio (redEdge (1 / 2) 0) ⟨10000, 20000, 0, 32768⟩ = .ok s) (bls : List (Block ℚ)) (hq : Unswerving bls) {fuel : Nat}
    (h : paint Engine.Demo.env .normal demoEnv demoTrig sch fuel s bls = .ok t) : MovedTowards ⟨32768, 0, 0⟩ s.surf.surf.canvas t.surf.surf.canvas := by
  obtain ⟨s1, h1, hf, hb, hc⟩ := studio_fine (br := redEdge (1 / 2) 0) ⟨⟨le_refl _, zero_lt_one⟩, le_refl _⟩ ⟨10000, 20000, 0, 32768⟩
  rw [h0] at h1
  cases h1
  have ha : s.surf.symm.active = false := by
    have : (studio (redEdge (1 / 2) 0) ⟨10000, 20000, 0, 32768⟩).toOption.map (fun s => s.surf.symm.active) = some false := by decide +kernel
    rw [h0] at this
    exact Option.some.inj this
  have e1 : onCanvas (chosenColour s.brush.settings) = ⟨32768, 0, 0⟩ := by rw [hb]; decide +kernel
  rw [← e1]
  refine plain_paint_moves_towards demoEnv_valid hf (.inr ha) ?_ (by rw [hb]; exact redEdge_plain _ _) (by rw [hb]; exact redEdge_colour _ _) hq h
  rw [hc]
  exact fun X Y => ⟨_, uniform_pixel _ X Y, by decide⟩

/-- A stroke on a picture that has this colour already ... -/
example : (observe (redEdge (1 / 2) 0) ⟨32768, 0, 0, 32768⟩ events [(61, 10), (66, 12), (66, 30)]).map Prod.snd =
    some [some ⟨32768, 0, 0, 32768⟩, some ⟨32768, 0, 0, 32768⟩, some ⟨32768, 0, 0, 32768⟩] := by decide +kernel

/-- ... and on one that is opaque and nearly has it: no channel goes past it. -/
example : (observe (redEdge (1 / 2) 0) ⟨32760, 9, 1, 32768⟩ events [(61, 10), (66, 12), (66, 30)]).map Prod.snd =
    some [some ⟨32766, 0, 0, 32768⟩, some ⟨32761, 7, 0, 32768⟩, some ⟨32760, 9, 1, 32768⟩] := by decide +kernel

end Demo
end Verif.Painting
