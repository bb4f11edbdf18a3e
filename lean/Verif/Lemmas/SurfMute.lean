import Verif.Lemmas.SurfMap
import Verif.Lemmas.EngineTwin
import Verif.Spec.Colourless

/-!
# Dabs that do not use their colour
-/

namespace Verif.Engine

/-- Through a common image. -/
theorem Alike.join {α β : Type} {x y : Except Fault α} {z : Except Fault β} (g : α → β)
    (hx : x.map g = z) (hy : y.map g = z) : Alike (fun a a' => g a' = g a) x y := by
  subst hx
  cases x with
  | error f =>
    cases y with
    | error f' => cases hy; exact .error _
    | ok _ => cases hy
  | ok a =>
    cases y with
    | error f' => cases hy
    | ok b => exact .ok (Except.ok.inj hy)

end Verif.Engine

namespace Verif.Dab
open Verif.Engine Verif.Blend Verif.Spectral Verif.Mask

section
variable {K : Type} [Field K] [LinearOrder K] [IsStrictOrderedRing K] [FloorRing K]

/-- Take away the colour where it is not used. -/
def mute (op : Op K) : Op K :=
  if op.colorA = 0 ∧ op.colorize = 0 then { op with color := ⟨0, 0, 0⟩ } else op

omit [Field K] [LinearOrder K] [IsStrictOrderedRing K] [FloorRing K] in
theorem zipWith_left {α β γ : Type} {g : α → β → γ} (h : ∀ x x' y, g x y = g x' y) : ∀ (l l' : List α) (m : List β),
    l.length = l'.length → List.zipWith g l m = List.zipWith g l' m
  | [], [], _, _ => rfl
  | _ :: _, _ :: _, [], _ => rfl
  | x :: l, x' :: l', y :: m, hl => by
    rw [List.zipWith_cons_cons, List.zipWith_cons_cons, h x x' y, zipWith_left h l l' m (by simpa using hl)]

theorem strength_zero : strength (0 : K) = 0 := by
  unfold strength toUInt
  simp

omit [IsStrictOrderedRing K] in
theorem spectral_length (c c' : Rgb K) : (rgbToSpectral c).length = (rgbToSpectral c').length := by
  simp [rgbToSpectral]

theorem eraser_mute {c c' : Color} (o m : Nat) (p : Px) : normalAndEraser c 0 o m p = normalAndEraser c' 0 o m p := by
  unfold normalAndEraser
  simp [lerpChan, u32]

theorem eraserPaint_mute {pow : K → K → K} (hp : PowZero pow) {c c' : Color} (o m : Nat) (p : Px) :
    normalAndEraserPaint pow c 0 o m p = normalAndEraserPaint pow c' 0 o m p := by
  unfold normalAndEraserPaint
  have h0 : (frac 0 : K) = 0 := by unfold frac; simp
  have hw : ∀ f g : K, wgm pow (brushSpectrum c) (pixelSpectrum p) (f * 0) g =
      wgm pow (brushSpectrum c') (pixelSpectrum p) (f * 0) g := by
    intro f g
    unfold wgm
    refine zipWith_left (fun x x' y => ?_) _ _ _ (spectral_length _ _)
    rw [mul_zero, hp x x']
  simp only [h0, hw, Nat.mul_zero, Nat.zero_mul, show u32 0 / 32768 = 0 from rfl]

theorem modes_mute {env : Env K} (hp : PowZero env.pow) (op : Op K) : modes env (mute op) = modes env op := by
  unfold mute
  by_cases h : op.colorA = 0 ∧ op.colorize = 0
  · rw [if_pos h]
    obtain ⟨h1, h2⟩ := h
    unfold modes
    have z : (0 : K) ≠ 1 := zero_ne_one
    simp only [h1, h2, strength_zero, z, if_false, ne_eq, not_true_eq_false, and_false]
    have e1 : ∀ o, (fun m p => (.ok (normalAndEraser ⟨0, 0, 0⟩ 0 o m p) : Except Fault Px)) =
        fun m p => .ok (normalAndEraser op.color 0 o m p) := by
      intro o
      funext m p
      rw [eraser_mute]
    have e2 : ∀ o, normalAndEraserPaint env.pow ⟨0, 0, 0⟩ 0 o = normalAndEraserPaint env.pow op.color 0 o := by
      intro o
      funext m p
      exact eraserPaint_mute hp o m p
    simp only [e1, e2]
  · rw [if_neg h]

theorem mute_shape (env : Env K) (op : Op K) : shapeOf env (mute op) = shapeOf env op ∧
    (mute op).hardness = op.hardness ∧ tilesOf (mute op) = tilesOf op ∧ (mute op).x = op.x ∧ (mute op).y = op.y ∧
      (mute op).radius = op.radius := by
  unfold mute
  split_ifs <;> exact ⟨rfl, rfl, rfl, rfl, rfl, rfl⟩

theorem mute_mute {env : Env K} (hp : PowZero env.pow) : Surf.Mute (kind env) (kind env) (mute (K := K)) := by
  refine ⟨fun d => (mute_shape env d).2.2.1, fun t d v => ?_⟩
  show v.bind (processOp env t (mute d)) = v.bind (processOp env t d)
  congr 1
  funext tile
  unfold processOp
  rw [(mute_shape env d).1, (mute_shape env d).2.1, modes_mute hp]

/-- The same dab, or an erasing dab in another colour. -/
def SameDab (a a' : Args K) : Prop :=
  a' = a ∨ (a.colorA = 0 ∧ a.colorize ≤ 0 ∧ ∃ r g b, a' = { a with colorR := r, colorG := g, colorB := b })

theorem prepare_mute {a a' : Args K} (h : SameDab a a') :
    (prepare a').map (Option.map mute) = (prepare a).map (Option.map mute) := by
  rcases h with rfl | ⟨h1, h2, r, g, b, rfl⟩
  · rfl
  · unfold prepare
    dsimp only
    have e1 : clampK a.colorA 0 1 = 0 := by
      rw [h1]; unfold clampK; simp
    have e2 : clampK a.colorize 0 1 = 0 := by
      unfold clampK
      rw [if_neg (by linarith)]
      split_ifs with q
      · rfl
      · linarith
    cases toInt (a.posterizeNum * 100 + 1 / 2) with
    | error f => rfl
    | ok n =>
      simp only [bind, Except.bind, pure, Except.pure]
      by_cases q1 : a.radius < 1 / 10
      · rw [if_pos q1, if_pos q1]
      rw [if_neg q1, if_neg q1]
      by_cases q2 : clampK a.hardness 0 1 = 0
      · rw [if_pos q2, if_pos q2]
      rw [if_neg q2, if_neg q2]
      by_cases q3 : clampK a.softness 0 1 = 1
      · rw [if_pos q3, if_pos q3]
      rw [if_neg q3, if_neg q3]
      by_cases q4 : clampK a.opaque' 0 1 = 0
      · rw [if_pos q4, if_pos q4]
      rw [if_neg q4, if_neg q4]
      simp only [Except.map, Option.map_some, mute, e1, e2, and_self, if_true]

end
end Verif.Dab

namespace Verif.Full
open Verif.Dab Verif.Symm Verif.Engine

section
variable {K : Type} [Field K] [LinearOrder K] [IsStrictOrderedRing K] [FloorRing K]

/-- Take away the colours of all queued dabs that do not use them. -/
def FSurf.mute (s : FSurf K) : FSurf K := { s with surf := s.surf.mapOps Dab.mute }

theorem drawInternal_mute {b : Build} {env : Env K} (hp : PowZero env.pow) {s s' : FSurf K} (hs : s'.mute = s.mute)
    {a a' : Args K} (ha : SameDab a a') (i : Int) :
    Alike (fun r r' => r'.1 = r.1 ∧ r'.2.mute = r.2.mute) (drawInternal b env s a i) (drawInternal b env s' a' i) := by
  have key : ∀ (s : FSurf K) (a : Args K), (drawInternal b env s a i).map (fun r => (r.1, r.2.mute)) =
      ((prepare a).map (Option.map Dab.mute)).bind fun o => match o with
        | none => .ok (false, s.mute)
        | some op => if convertible op then
            (Surf.drawDab b (kind env) s.mute.surf op).bind fun surf =>
              if 0 ≤ i ∧ i < s.mute.boxCap then
                .ok (true, { s.mute with surf := surf, boxes := setBox s.mute.boxes i (updateBox (s.mute.boxes i) op) })
              else .error .outOfBounds
          else .error .floatConv := by
    intro s a
    unfold drawInternal
    cases prepare a with
    | error f => rfl
    | ok o =>
      cases o with
      | none => rfl
      | some op =>
        simp only [bind, Except.bind, Except.map, Option.map_some]
        obtain ⟨-, -, -, m1, m2, m3⟩ := mute_shape env op
        have hc : convertible (Dab.mute op) = convertible op := by unfold convertible; rw [m1, m2, m3]
        have hu : ∀ r, updateBox r (Dab.mute op) = updateBox r op := by intro r; unfold updateBox; rw [m1, m2, m3]
        simp only [hc, hu]
        by_cases q : convertible op = true
        · rw [if_pos q, if_pos q, show s.mute.surf = s.surf.mapOps Dab.mute from rfl, ← Surf.drawDab_map (mute_mute hp)]
          cases Surf.drawDab b (kind env) s.surf op with
          | error f => rfl
          | ok surf =>
            simp only [Except.map]
            by_cases q2 : 0 ≤ i ∧ i < s.boxCap
            · rw [if_pos q2, if_pos (show 0 ≤ i ∧ i < s.mute.boxCap from q2)]; rfl
            · rw [if_neg q2, if_neg (show ¬ (0 ≤ i ∧ i < s.mute.boxCap) from q2)]
        · rw [if_neg q, if_neg q]
  have j := Alike.join _ (key s a) (by rw [key s' a', hs, prepare_mute ha])
  cases hx : drawInternal b env s a i <;> cases hy : drawInternal b env s' a' i <;> rw [hx, hy] at j <;> cases j
  · exact .error _
  · rename_i h
    exact .ok ⟨(Prod.ext_iff.mp h).1, (Prod.ext_iff.mp h).2⟩

theorem passes_mute {s s' : FSurf K} (hs : s'.mute = s.mute) : s'.symm = s.symm ∧ s'.numB = s.numB ∧ s'.dirty = s.dirty ∧
    s'.boxes = s.boxes ∧ s'.boxCap = s.boxCap ∧ s'.surf.canvas = s.surf.canvas := by
  have h1 := congrArg FSurf.symm hs
  have h2 := congrArg FSurf.numB hs
  have h3 := congrArg FSurf.dirty hs
  have h4 := congrArg FSurf.boxes hs
  have h5 := congrArg FSurf.boxCap hs
  have h6 := congrArg (fun s => s.surf.canvas) hs
  exact ⟨h1, h2, h3, h4, h5, h6⟩

theorem drawDab_mute {b : Build} {env : Env K} (hp : PowZero env.pow) {s s' : FSurf K} (hs : s'.mute = s.mute)
    {a a' : Args K} (ha : SameDab a a') :
    Alike (fun r r' => r'.1 = r.1 ∧ r'.2.mute = r.2.mute) (drawDab b env s a) (drawDab b env s' a') := by
  unfold drawDab
  refine Alike.bind (drawInternal_mute hp hs ha 0) ?_
  rintro ⟨m, s1⟩ ⟨m', s1'⟩ ⟨h1, h2⟩
  dsimp only at h1 h2 ⊢
  subst h1
  obtain ⟨p1, p2, p3, -⟩ := passes_mute h2
  have hd : ∀ (t t' : FSurf K) (u : Int), t'.mute = t.mute →
      ({ t' with dirty := min t'.numB u } : FSurf K).mute = { t with dirty := min t.numB u }.mute := by
    intro t t' u h
    show ({ t'.mute with dirty := min t'.mute.numB u } : FSurf K) = { t.mute with dirty := min t.mute.numB u }
    rw [h]
  by_cases q : m' = true
  · rw [if_pos q, if_pos q]
    have ax : a'.x = a.x ∧ a'.y = a.y ∧ a'.angle = a.angle := by
      rcases ha with rfl | ⟨-, -, r, g, b, rfl⟩ <;> exact ⟨rfl, rfl, rfl⟩
    rw [p1, p2, ax.1, ax.2.1, ax.2.2]
    refine Alike.bind (Alike.same (P := Eq) _ fun _ _ => rfl) ?_
    rintro ⟨ps, used⟩ _ rfl
    dsimp only
    refine Alike.bind (P := fun t t' => t'.mute = t.mute) ?_ ?_
    · clear p1 p2 p3
      induction ps generalizing s1 s1' with
      | nil => exact .ok h2
      | cons p ps ih =>
        simp only [List.foldlM_cons]
        refine Alike.bind (P := fun t t' => t'.mute = t.mute) ?_ fun t t' ht => ih _ _ ht
        unfold drawPass
        refine Alike.bind (drawInternal_mute hp h2 ?_ _) fun t t' ht => .ok ht.2
        rcases ha with rfl | ⟨k1, k2, r, g, b, rfl⟩
        · exact .inl rfl
        · exact .inr ⟨k1, k2, r, g, b, rfl⟩
    · intro t t' ht
      exact .ok ⟨rfl, hd _ _ _ ht⟩
  · rw [if_neg q, if_neg q]
    exact .ok ⟨rfl, hd _ _ _ h2⟩

theorem endAtomic_mute {env : Env K} (hp : PowZero env.pow) {s s' : FSurf K} (hs : s'.mute = s.mute)
    (order : List TileIndex → List TileIndex) (roi : Option (Int × (Int → Rect))) :
    Alike (fun r r' => r'.1 = r.1 ∧ r'.2.mute = r.2.mute) (endAtomic env order roi s) (endAtomic env order roi s') := by
  obtain ⟨p1, p2, p3, p4, p5, p6⟩ := passes_mute hs
  have hq := congrArg FSurf.surf hs
  unfold endAtomic
  have j := Alike.join _ (Surf.endAtomic_map (mute_mute hp) (fun _ => true) order s.surf)
    (y := Surf.endAtomic (kind env) (fun _ => true) order s'.surf) (by
      rw [Surf.endAtomic_map (mute_mute hp)]
      exact congrArg _ hq)
  refine Alike.bind j ?_
  intro t t' ht
  have e : ({ s' with surf := t' } : FSurf K).mute = ({ s with surf := t } : FSurf K).mute := by
    show ({ s' with surf := t'.mapOps Dab.mute } : FSurf K) = { s with surf := t.mapOps Dab.mute }
    rw [ht, p1, p2, p3, p4, p5]
  cases roi with
  | none => exact .ok ⟨rfl, e⟩
  | some r =>
    obtain ⟨n, old⟩ := r
    dsimp only
    have hr : outRects s'.boxes s'.boxCap n s'.dirty old = outRects s.boxes s.boxCap n s.dirty old := by rw [p3, p4, p5]
    rw [hr]
    refine Alike.bind (Alike.same (P := Eq) _ fun _ _ => rfl) ?_
    rintro rs _ rfl
    exact .ok ⟨rfl, e⟩

theorem beginAtomic_mute (trig : Trig K) (alloc balloc : Int → Bool) {s s' : FSurf K} (hs : s'.mute = s.mute) :
    Alike (fun r r' => r'.mute = r.mute) (beginAtomic trig alloc balloc s) (beginAtomic trig alloc balloc s') := by
  have key : ∀ s : FSurf K, (beginAtomic trig alloc balloc s).map FSurf.mute = beginAtomic trig alloc balloc s.mute := by
    intro s
    unfold beginAtomic
    rw [show s.mute.symm = s.symm from rfl]
    cases Symm.update trig alloc s.symm with
    | error f => rfl
    | ok y =>
      simp only [bind, Except.bind]
      unfold prepareBoxes FSurf.mute
      dsimp only
      split_ifs <;> rfl
  exact Alike.join _ (key s) (by rw [key s', hs])

end
end Verif.Full
