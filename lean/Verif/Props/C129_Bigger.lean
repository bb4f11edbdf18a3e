import Verif.Props.C128_Picture

/-!
# C129: a bigger, harder or more opaque dab never covers less

Dabs drawn on a surface directly, without a brush. Each dab of the second list is where the one of the first is, with the same colour and shape, no
less opaque, no less hard, no softer and of the same size, or no smaller and not a small one. Then no pixel gets less. For small dabs it may:
the mask is computed in another way from a radius of three pixels on.
-/

namespace Verif.Painting
open Verif.Full Verif.Dab Verif.Engine Verif.Blend Verif.Symm Verif.Map Verif.Mask

section
variable {K : Type} [Field K] [LinearOrder K] [IsStrictOrderedRing K] [FloorRing K]

/-! ### Specification -/

/-- One block: some dabs, then the end of the block. -/
def drawBlock (b : Build) (env : Dab.Env K) (order : List TileIndex → List TileIndex) (roi : Option (Int × (Int → Rect))) (s : FSurf K)
    (l : List (Args K)) : Except Fault (FSurf K) := do
  let s ← l.foldlM (fun s a => do let r ← Full.drawDab b env s a; return r.2) s
  let r ← endAtomic env order roi s
  return r.2

/-! ### The theorems -/

theorem dabs_now {b : Build} {env : Dab.Env K} {trig : Trig K} : ∀ (l : List (Args K)) {s t : FSurf K} {c : Canvas}, Sound b env trig s c →
    l.foldlM (fun s a => do let r ← Full.drawDab b env s a; return r.2) s = .ok t →
    Sound b env trig t ((l.flatMap fun a => a :: Spec.Now.copies s.symm a).foldl (Spec.Now.dabAt env) c) := by
  intro l
  induction l with
  | nil =>
    intro s t c hs h
    cases h
    exact hs
  | cons a l ih =>
    intro s t c hs h
    rw [List.foldlM_cons] at h
    obtain ⟨s1, h1, h⟩ := except_bind_ok h
    obtain ⟨⟨m, s1'⟩, h2, h1⟩ := except_bind_ok h1
    cases h1
    obtain ⟨-, k2, k3⟩ := drawDab_now (n := 0) h2 hs
    have := ih k3 h
    rw [k2, draw_all] at this
    rw [List.flatMap_cons, List.foldl_append]
    exact this

theorem drawBlock_now {b : Build} {env : Dab.Env K} {trig : Trig K} {order : List TileIndex → List TileIndex} (ho : ∀ l, (order l).Perm l)
    {roi : Option (Int × (Int → Rect))} {l : List (Args K)} {s t : FSurf K} {c : Canvas} (hs : Sound b env trig s c)
    (h : drawBlock b env order roi s l = .ok t) :
    t.surf.canvas = (l.flatMap fun a => a :: Spec.Now.copies s.symm a).foldl (Spec.Now.dabAt env) c := by
  unfold drawBlock at h
  obtain ⟨s1, h1, h⟩ := except_bind_ok h
  obtain ⟨⟨rs, s2⟩, h2, h⟩ := except_bind_ok h
  cases h
  exact (endAtomic_sound ho h2 (dabs_now l hs h1)).2.1

theorem all_copies (d : Data K) {l l' : List (Args K)} (h : List.Forall₂ Covers l l') :
    List.Forall₂ Covers (l.flatMap fun a => a :: Spec.Now.copies d a) (l'.flatMap fun a => a :: Spec.Now.copies d a) := by
  induction h with
  | nil => exact .nil
  | cons h1 _ ih =>
    rw [List.flatMap_cons, List.flatMap_cons]
    exact List.rel_append (copies_stronger d h1) ih

/-- Dabs side by side. -/
theorem dabs_cover {env : Dab.Env K} (he : env.Valid) {T : Px → Px → Prop} {Q : Args K → Prop}
    (hT : ∀ a a' X Y p p' q q', Covers a a' → Q a → T p p' → pixelDab env X Y p a = .ok q → pixelDab env X Y p' a' = .ok q' → T q q')
    {l l' : List (Args K)} (hl : List.Forall₂ Covers l l') : (∀ a ∈ l, Q a) → ∀ c c' : Canvas,
      (∀ X Y p p', pixel c X Y = .ok p → pixel c' X Y = .ok p' → T p p') →
      ∀ X Y p p', pixel (l.foldl (Spec.Now.dabAt env) c) X Y = .ok p → pixel (l'.foldl (Spec.Now.dabAt env) c') X Y = .ok p' → T p p' := by
  induction hl with
  | nil => intro _ c c' hcc; exact hcc
  | cons h1 _ ih =>
    intro hq c c' hcc
    refine ih (fun a q => hq a (List.mem_cons_of_mem _ q)) _ _ ?_
    intro X Y q q' w w'
    obtain ⟨p, hp, k1⟩ := dabAt_pixel he w
    obtain ⟨p', hp', k1'⟩ := dabAt_pixel he w'
    exact hT _ _ X Y p p' q q' h1 (hq _ List.mem_cons_self) (hcc X Y p p' hp hp') k1 k1'

theorem blocks_cover {b : Build} {env : Dab.Env K} (he : env.Valid) {trig : Trig K} {order order' : List TileIndex → List TileIndex}
    (ho : ∀ l, (order l).Perm l) (ho' : ∀ l, (order' l).Perm l) {roi roi' : Option (Int × (Int → Rect))} {T : Px → Px → Prop} {Q : Args K → Prop}
    (hQ : ∀ a x y θ, Q a → Q { a with x := x, y := y, angle := θ })
    (hT : ∀ a a' X Y p p' q q', Covers a a' → Q a → T p p' → pixelDab env X Y p a = .ok q → pixelDab env X Y p' a' = .ok q' → T q q')
    {s t t' : FSurf K} (hs : Sound b env trig s s.surf.canvas)
    (hc : ∀ X Y p p', pixel s.surf.canvas X Y = .ok p → pixel s.surf.canvas X Y = .ok p' → T p p') {l l' : List (Args K)}
    (hl : List.Forall₂ Covers l l') (hq : ∀ a ∈ l, Q a) (h : drawBlock b env order roi s l = .ok t) (h' : drawBlock b env order' roi' s l' = .ok t') :
    ∀ X Y p p', pixel t.surf.canvas X Y = .ok p → pixel t'.surf.canvas X Y = .ok p' → T p p' := by
  rw [drawBlock_now ho hs h, drawBlock_now ho' hs h']
  refine dabs_cover he hT (all_copies _ hl) (fun a ha => ?_) _ _ hc
  obtain ⟨a0, m1, m2⟩ := List.mem_flatMap.mp ha
  exact copies_like hQ _ (hq a0 m1) a m2

/-- **C129** A block of dabs of plain paint on a surface between blocks, and one of bigger, harder or more opaque dabs in the same places: no
pixel is more transparent after the second, with symmetry or without, whatever the order in which the tiles are drawn. -/
theorem bigger_dabs_cover_no_less {b : Build} {env : Dab.Env K} (he : env.Valid) {trig : Trig K} {order order' : List TileIndex → List TileIndex}
    (ho : ∀ l, (order l).Perm l) (ho' : ∀ l, (order' l).Perm l) {roi roi' : Option (Int × (Int → Rect))}
    {s t t' : FSurf K} (hs : Sound b env trig s s.surf.canvas) (hc : CanvasValid s.surf.canvas)
    {l l' : List (Args K)} (hl : List.Forall₂ Covers l l') (hq : ∀ a ∈ l, PlainDab a)
    (h : drawBlock b env order roi s l = .ok t) (h' : drawBlock b env order' roi' s l' = .ok t') : NoLessPaint t.surf.canvas t'.surf.canvas := by
  have z := blocks_cover he ho ho' (T := CoveredMore) (Q := PlainDab) (fun _ _ _ _ w => ⟨w.1, w.2, w.3, w.4, w.5⟩)
    (fun _ _ _ _ _ _ _ _ w1 w2 w3 w4 w5 => pixelDab_covers he w1 w2 w3 w4 w5) hs (start_alike hc).1 hl hq h h'
  exact fun X Y p p' h1 h2 => (z X Y p p' h1 h2).2.2

/-- **C129** The same for dabs that erase: no pixel keeps more. -/
theorem bigger_dabs_erase_no_less {b : Build} {env : Dab.Env K} (he : env.Valid) {trig : Trig K} {order order' : List TileIndex → List TileIndex}
    (ho : ∀ l, (order l).Perm l) (ho' : ∀ l, (order' l).Perm l) {roi roi' : Option (Int × (Int → Rect))}
    {s t t' : FSurf K} (hs : Sound b env trig s s.surf.canvas) (hc : CanvasValid s.surf.canvas)
    {l l' : List (Args K)} (hl : List.Forall₂ Covers l l') (hq : ∀ a ∈ l, ErasingDab a)
    (h : drawBlock b env order roi s l = .ok t) (h' : drawBlock b env order' roi' s l' = .ok t') : NoMorePaint t.surf.canvas t'.surf.canvas := by
  have z := blocks_cover he ho ho' (T := ErasedMore) (Q := ErasingDab) (fun _ _ _ _ w => ⟨w.1, w.2, w.3, w.4, w.5⟩)
    (fun _ _ _ _ _ _ _ _ w1 w2 w3 w4 w5 => pixelDab_takes he w1 w2 w3 w4 w5) hs (start_alike hc).2 hl hq h h'
  exact fun X Y p p' h1 h2 => (z X Y p p' h1 h2).2.2

end

namespace Demo

/-- A dab of plain red, of a radius and a hardness. -/
def dabOf (r h : ℚ) : Args ℚ := { demoArgs with radius := r, hardness := h }

/-- The alpha of some pixels after a block of dabs on a transparent canvas. -/
def after (l : List (Args ℚ)) (ps : List (Int × Int)) : Option (List (Option Nat)) :=
  match init .normal demoTrig (fun _ => true) (fun _ => Symm.unit) 0 (uniform ⟨0, 0, 0, 0⟩) with
  | .error _ => none
  | .ok s => match drawBlock .normal Dab.demoEnv id none s l with
    | .error _ => none
    | .ok t => some (ps.map fun q => ((pixel t.surf.canvas q.1 q.2).toOption).map Px.a)

/-- A dab, and a bigger and harder one. -/
example : after [dabOf 4 (1 / 2)] [(64, 10), (66, 10), (67, 10), (68, 10), (69, 10)] = some [some 15872, some 9728, some 3584, some 0, some 0] := by
  decide +kernel

example : after [dabOf 5 (3 / 4)] [(64, 10), (66, 10), (67, 10), (68, 10), (69, 10)] = some [some 16274, some 14964, some 13653, some 8847, some 0] := by
  decide +kernel

/-- The conditions are met. -/
example : Covers (dabOf 4 (1 / 2)) (dabOf 5 (3 / 4)) :=
  ⟨⟨le_refl _, by norm_num [dabOf], le_refl _, by norm_num [dabOf], rfl⟩, .inr (by norm_num [dabOf])⟩

example (r h : ℚ) : PlainDab (dabOf r h) := ⟨le_refl (0 : ℚ), le_refl (0 : ℚ), le_refl (0 : ℚ), le_refl (0 : ℚ), rfl⟩

/-- **Small dabs may cover less when they get bigger**: three pixels are the least radius without the fine sampling of the mask. -/
theorem bigger_dab_may_cover_less :
    NoSmaller (dabOf (299 / 100) (1 / 2)) (dabOf 3 (1 / 2)) ∧
    after [dabOf (299 / 100) (1 / 2)] [(64, 10), (64, 12), (65, 12)] = some [some 15634, some 6673, some 3827] ∧
    after [dabOf 3 (1 / 2)] [(64, 10), (64, 12), (65, 12)] = some [some 15473, some 4551, some 910] :=
  ⟨⟨le_refl _, le_refl _, le_refl _, by norm_num [dabOf], rfl⟩, by decide +kernel, by decide +kernel⟩

end Demo
end Verif.Painting
