import Verif.Props.C129_Bigger

/-!
# C132: red, green and blue are treated alike and do not influence each other

Without colorize and pigments, each colour channel of the picture is made from the same channel of the old picture and of the dabs, and from the
transparency, in the same way for the three channels.
-/

namespace Verif.Painting
open Verif.Full Verif.Dab Verif.Engine Verif.Blend Verif.Symm Verif.Map Verif.Mask

/-! ### Specification -/

/-- A colour channel. -/
inductive Chan where
  | r | g | b
deriving DecidableEq

/-- The channel of three values. -/
def Chan.of {α : Type} (r g b : α) : Chan → α
  | .r => r
  | .g => g
  | .b => b

/-- Which channel is put into the place of each: a permutation, or one in the place of another. -/
abbrev Selection := Chan → Chan

/-- The pixel with the selected channels. -/
def pickPx (f : Selection) (p : Px) : Px := ⟨(f .r).of p.r p.g p.b, (f .g).of p.r p.g p.b, (f .b).of p.r p.g p.b, p.a⟩

section
variable {K : Type} [Field K] [LinearOrder K] [IsStrictOrderedRing K] [FloorRing K]

/-- The dab with the selected channels. -/
def pickDab (f : Selection) (a : Args K) : Args K :=
  { a with
    colorR := (f .r).of a.colorR a.colorG a.colorB
    colorG := (f .g).of a.colorR a.colorG a.colorB
    colorB := (f .b).of a.colorR a.colorG a.colorB }

/-- No colorize and no pigments: paint, erasing, locked alpha, posterize and what is between them. -/
structure NoMixing (a : Args K) : Prop where
  colorize : a.colorize ≤ 0
  pigment : a.paint ≤ 0

/-- The second picture is the first with the selected channels. -/
def Picked (f : Selection) (c c' : Canvas) : Prop := ∀ X Y p p', pixel c X Y = .ok p → pixel c' X Y = .ok p' → p' = pickPx f p

/-! ### One dab -/

/-- The colour with the selected channels. -/
def pickColor (f : Selection) (c : Blend.Color) : Blend.Color := ⟨(f .r).of c.r c.g c.b, (f .g).of c.r c.g c.b, (f .b).of c.r c.g c.b⟩

theorem Chan.of_map {α β : Type} (h : α → β) (r g b : α) (k : Chan) : h (k.of r g b) = k.of (h r) (h g) (h b) := by cases k <;> rfl

theorem Chan.of_map₂ {α β γ : Type} (h : α → β → γ) (r g b : α) (r' g' b' : β) (k : Chan) :
    h (k.of r g b) (k.of r' g' b') = k.of (h r r') (h g g') (h b b') := by cases k <;> rfl

theorem normal_pick (f : Selection) (c : Blend.Color) (o m : Nat) (p : Px) : Blend.normal (pickColor f c) o m (pickPx f p) = pickPx f (Blend.normal c o m p) := by
  simp only [Blend.normal, pickColor, pickPx, Chan.of_map₂]

theorem eraser_pick (f : Selection) (c : Blend.Color) (k o m : Nat) (p : Px) :
    normalAndEraser (pickColor f c) k o m (pickPx f p) = pickPx f (normalAndEraser c k o m p) := by
  simp only [normalAndEraser, pickColor, pickPx, Chan.of_map₂]

theorem lock_pick (f : Selection) (c : Blend.Color) (o m : Nat) (p : Px) :
    Blend.lockAlpha (pickColor f c) o m (pickPx f p) = pickPx f (Blend.lockAlpha c o m p) := by
  simp only [Blend.lockAlpha, pickColor, pickPx, Chan.of_map₂]

theorem posterize_pick (f : Selection) (n o m : Nat) (p : Px) : Blend.posterize n o m (pickPx f p) = pickPx f (Blend.posterize n o m p) := by
  unfold Blend.posterize pickPx
  dsimp only
  generalize f .r = x, f .g = y, f .b = z
  cases x <;> cases y <;> cases z <;> rfl

/-- The operation with the selected channels. -/
def pickOp (f : Selection) (op : Op K) : Op K := { op with color := pickColor f op.color }

omit [IsStrictOrderedRing K] in
theorem prepare_pick (f : Selection) (a : Args K) : prepare (pickDab f a) = (prepare a).map (Option.map (pickOp f)) := by
  unfold prepare pickDab
  dsimp only
  cases toInt (a.posterizeNum * 100 + 1 / 2) with
  | error e => rfl
  | ok n =>
    simp only [bind, Except.bind, pure, Except.pure]
    by_cases q1 : a.radius < 1 / 10
    · rw [if_pos q1, if_pos q1]; rfl
    by_cases q2 : clampK a.hardness 0 1 = 0
    · rw [if_neg q1, if_pos q2, if_neg q1, if_pos q2]; rfl
    by_cases q3 : clampK a.softness 0 1 = 1
    · rw [if_neg q1, if_neg q2, if_pos q3, if_neg q1, if_neg q2, if_pos q3]; rfl
    by_cases q4 : clampK a.opaque' 0 1 = 0
    · rw [if_neg q1, if_neg q2, if_neg q3, if_pos q4, if_neg q1, if_neg q2, if_neg q3, if_pos q4]; rfl
    rw [if_neg q1, if_neg q2, if_neg q3, if_neg q4, if_neg q1, if_neg q2, if_neg q3, if_neg q4]
    simp only [Except.map, Option.map, pickOp, pickColor, Chan.of_map]

/-- Two lists of blend modes that do the same to the selected channels. -/
theorem foldlM_pick (f : Selection) {m : Nat} {l l' : List (Nat → Px → Except Fault Px)}
    (h : List.Forall₂ (fun k k' => ∀ p, k' m (pickPx f p) = (k m p).map (pickPx f)) l l') (p : Px) :
    l'.foldlM (fun p (k : Nat → Px → Except Fault Px) => k m p) (pickPx f p) = (l.foldlM (fun p (k : Nat → Px → Except Fault Px) => k m p) p).map (pickPx f) := by
  induction h generalizing p with
  | nil => rfl
  | cons h1 _ ih =>
    rename_i k k' l l' _
    rw [List.foldlM_cons, List.foldlM_cons, h1]
    cases k m p with
    | error e => rfl
    | ok q => exact ih q

theorem modes_pick (f : Selection) {env : Dab.Env K} {op : Op K} (h1 : op.paint = 0) (h2 : op.colorize = 0) (m : Nat) :
    List.Forall₂ (fun k k' => ∀ p, k' m (pickPx f p) = (k m p).map (pickPx f)) (modes env op) (modes env (pickOp f op)) := by
  obtain ⟨x, y, radius, color, colorA, opa, hardness, softness, aspect, angle, normal, lock, colorize, posterize, num, paint⟩ := op
  dsimp only at h1 h2
  subst h1 h2
  unfold modes pickOp
  dsimp only
  rw [if_neg (lt_irrefl (0 : K)), if_neg (lt_irrefl (0 : K)), if_neg (not_not.mpr rfl), if_neg (not_not.mpr rfl), if_pos zero_lt_one, if_pos zero_lt_one]
  refine List.rel_append (List.rel_append (List.rel_append (List.rel_append ?_ ?_) .nil) .nil) ?_
  · split_ifs
    · exact .cons (fun p => congrArg Except.ok (normal_pick f _ _ m p)) .nil
    · exact .cons (fun p => congrArg Except.ok (eraser_pick f _ _ _ m p)) .nil
    · exact .nil
  · split_ifs
    · exact .cons (fun p => congrArg Except.ok (lock_pick f _ _ m p)) .nil
    · exact .nil
  · split_ifs
    · exact .cons (fun p => congrArg Except.ok (posterize_pick f _ _ m p)) .nil
    · exact .nil

theorem pixelDab_pick (f : Selection) {env : Dab.Env K} {a : Args K} (ha : NoMixing a) (X Y : Int) (p : Px) :
    pixelDab env X Y (pickPx f p) (pickDab f a) = (pixelDab env X Y p a).map (pickPx f) := by
  unfold pixelDab
  rw [prepare_pick]
  cases hp : prepare a with
  | error e => rfl
  | ok o =>
    cases o with
    | none => rfl
    | some op =>
      obtain ⟨-, -, -, e1, e2, e3, e4, e5⟩ := prepare_some hp
      rw [(clampK_eq_zero a.colorize).mpr ha.colorize] at e3
      rw [(clampK_eq_zero a.paint).mpr ha.pigment] at e5
      show (if opacity env op X Y = 0 then Except.ok (pickPx f p) else pixelStep (modes env (pickOp f op)) (opacity env op X Y) (pickPx f p)) = _
      dsimp only
      by_cases q : opacity env op X Y = 0
      · rw [if_pos q, if_pos q]; rfl
      · rw [if_neg q, if_neg q]
        exact foldlM_pick f (modes_pick f e5 e3 _) p

theorem dabs_pick (f : Selection) {env : Dab.Env K} (he : env.Valid) (l : List (Args K)) (hl : ∀ a ∈ l, NoMixing a) {c c' : Canvas} (hc : Picked f c c') :
    Picked f (l.foldl (Spec.Now.dabAt env) c) ((l.map (pickDab f)).foldl (Spec.Now.dabAt env) c') := by
  induction l generalizing c c' with
  | nil => exact hc
  | cons a l ih =>
    refine ih (fun a q => hl a (List.mem_cons_of_mem _ q)) fun X Y q q' w w' => ?_
    obtain ⟨p, hp, k1⟩ := dabAt_pixel he w
    obtain ⟨p', hp', k1'⟩ := dabAt_pixel he w'
    rw [hc X Y p p' hp hp', pixelDab_pick f (hl a List.mem_cons_self), k1] at k1'
    exact (Except.ok.inj k1').symm

theorem copies_pick (f : Selection) (d : Data K) (l : List (Args K)) :
    ((l.map (pickDab f)).flatMap fun a => a :: Spec.Now.copies d a) = (l.flatMap fun a => a :: Spec.Now.copies d a).map (pickDab f) := by
  rw [List.flatMap_map, List.map_flatMap]
  refine List.flatMap_congr fun a _ => ?_
  rw [List.map_cons]
  refine congrArg _ ?_
  unfold Spec.Now.copies
  dsimp only [pickDab]
  split
  · rw [List.map_map]; rfl
  · rfl

/-! ### The theorem -/

/-- **C132** Two surfaces between blocks, with the same symmetry, whose pictures are the same up to a selection of the channels. On the first a
block of dabs without colorize and pigments is drawn, on the second one with the same dabs in colours with the selected channels. Then the
pictures are the same up to that selection again. -/
theorem channels_apart (f : Selection) {b : Build} {env : Dab.Env K} (he : env.Valid) {trig : Trig K} {order order' : List TileIndex → List TileIndex}
    (ho : ∀ l, (order l).Perm l) (ho' : ∀ l, (order' l).Perm l) {roi roi' : Option (Int × (Int → Rect))}
    {s s' t t' : FSurf K} (hs : Sound b env trig s s.surf.canvas) (hs' : Sound b env trig s' s'.surf.canvas) (hd : s'.symm = s.symm)
    (hc : Picked f s.surf.canvas s'.surf.canvas) {l : List (Args K)} (hl : ∀ a ∈ l, NoMixing a)
    (h : drawBlock b env order roi s l = .ok t) (h' : drawBlock b env order' roi' s' (l.map (pickDab f)) = .ok t') :
    Picked f t.surf.canvas t'.surf.canvas := by
  rw [drawBlock_now ho hs h, drawBlock_now ho' hs' h', hd, copies_pick]
  refine dabs_pick f he _ (fun a ha => ?_) hc
  obtain ⟨a0, m1, m2⟩ := List.mem_flatMap.mp ha
  exact copies_like (Q := NoMixing) (fun _ _ _ _ w => ⟨w.1, w.2⟩) _ (hl a0 m1) a m2

end

namespace Demo

/-- Some pixels after a block of dabs on a canvas of one colour. -/
def drawn (p : Px) (l : List (Args ℚ)) (ps : List (Int × Int)) : Option (List (Option Px)) :=
  match init .normal demoTrig (fun _ => true) (fun _ => Symm.unit) 0 (uniform p) with
  | .error _ => none
  | .ok s => match drawBlock .normal Dab.demoEnv id none s l with
    | .error _ => none
    | .ok t => some (ps.map fun q => (pixel t.surf.canvas q.1 q.2).toOption)

/-- A dab of some colour, and one that posterizes and half locks the transparency. -/
def dabs : List (Args ℚ) :=
  [{ demoArgs with colorR := 1 / 4, colorG := 3 / 4, colorB := 1 },
   { demoArgs with colorR := 1, colorG := 1 / 2, colorB := 0, lockAlpha := 1 / 2, posterize := 1 / 4, posterizeNum := 3 / 100, x := 66 }]

/-- Green in the place of red, blue in that of green, red in that of blue. -/
def turn : Selection
  | .r => .g
  | .g => .b
  | .b => .r

theorem dabs_noMixing : ∀ a ∈ dabs, NoMixing a := by
  intro a ha
  simp only [dabs, List.mem_cons, List.not_mem_nil, or_false] at ha
  rcases ha with rfl | rfl <;> exact ⟨le_refl (0 : ℚ), le_refl (0 : ℚ)⟩

/-- The first picture, and the one with the channels turned. -/
example : drawn ⟨10000, 20000, 5000, 30000⟩ dabs [(64, 10), (66, 10), (69, 10)] =
    some [some ⟨15304, 20570, 12846, 31565⟩, some ⟨17472, 19844, 9116, 31174⟩, some ⟨11697, 19713, 4471, 30113⟩] := by decide +kernel

example : drawn (pickPx turn ⟨10000, 20000, 5000, 30000⟩) (dabs.map (pickDab turn)) [(64, 10), (66, 10), (69, 10)] =
    some [some ⟨20570, 12846, 15304, 31565⟩, some ⟨19844, 9116, 17472, 31174⟩, some ⟨19713, 4471, 11697, 30113⟩] := by decide +kernel

/-- The conditions are met by new surfaces. -/
example {s s' t t' : FSurf ℚ} (h1 : init .normal demoTrig (fun _ => true) (fun _ => Symm.unit) 0 (uniform ⟨10000, 20000, 5000, 30000⟩) = .ok s)
    (h2 : init .normal demoTrig (fun _ => true) (fun _ => Symm.unit) 0 (uniform ⟨20000, 5000, 10000, 30000⟩) = .ok s')
    (h : drawBlock .normal Dab.demoEnv id none s dabs = .ok t) (h' : drawBlock .normal Dab.demoEnv id none s' (dabs.map (pickDab turn)) = .ok t') :
    Picked turn t.surf.canvas t'.surf.canvas := by
  obtain ⟨s1, k1, k2, k3⟩ := init_sound .normal Dab.demoEnv demoTrig (fun _ => true) (fun _ => Symm.unit) 0 (uniform ⟨10000, 20000, 5000, 30000⟩)
  obtain ⟨s2, j1, j2, j3⟩ := init_sound .normal Dab.demoEnv demoTrig (fun _ => true) (fun _ => Symm.unit) 0 (uniform ⟨20000, 5000, 10000, 30000⟩)
  rw [h1] at k1
  cases k1
  rw [h2] at j1
  cases j1
  have hd : s'.symm = s.symm := by
    unfold init at h1 h2
    obtain ⟨d, d1, h1⟩ := except_bind_ok h1
    obtain ⟨d', d2, h2⟩ := except_bind_ok h2
    rw [d1] at d2
    cases d2
    obtain ⟨u, -, h1⟩ := except_bind_ok h1
    obtain ⟨u', -, h2⟩ := except_bind_ok h2
    cases h1
    cases h2
    rfl
  refine channels_apart turn demoEnv_valid (fun _ => List.Perm.refl _) (fun _ => List.Perm.refl _) (by rw [k3]; exact k2) (by rw [j3]; exact j2) hd ?_
    dabs_noMixing h h'
  rw [k3, j3]
  intro X Y p p' w w'
  rw [uniform_pixel] at w w'
  cases w
  cases w'
  rfl

/-- With colorize the channels are weighed: from the turned picture another one comes than the turned result. -/
theorem colorize_mixes : drawn ⟨10000, 20000, 5000, 30000⟩ [{ demoArgs with colorize := 1 }] [(64, 10)] = some [some ⟨19687, 16717, 8983, 30000⟩] ∧
    drawn (pickPx turn ⟨10000, 20000, 5000, 30000⟩) [pickDab turn { demoArgs with colorize := 1 }] [(64, 10)] = some [some ⟨13645, 5911, 19687, 30000⟩] := by
  decide +kernel

end Demo
end Verif.Painting
