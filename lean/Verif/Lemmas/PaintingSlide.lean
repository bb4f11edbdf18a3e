import Verif.Lemmas.EngineSlide
import Verif.Lemmas.Painting

/-!
# Dabs on two pictures that are the same up to a shift
-/

namespace Verif.Mask
variable {K : Type} [Field K] [LinearOrder K] [IsStrictOrderedRing K]

/-- The shape somewhere else. -/
def Shape.slide (s : Shape K) (u w : Int) : Shape K := { s with x := s.x + u, y := s.y + w }

omit [LinearOrder K] [IsStrictOrderedRing K] in
theorem slide_x (s : Shape K) (u w : Int) (X : Int) : (s.slide u w).x - ((X + u : Int) : K) = s.x - X := by
  unfold Shape.slide; push_cast; ring

omit [LinearOrder K] [IsStrictOrderedRing K] in
theorem slide_y (s : Shape K) (u w : Int) (Y : Int) : (s.slide u w).y - ((Y + w : Int) : K) = s.y - Y := by
  unfold Shape.slide; push_cast; ring

omit [IsStrictOrderedRing K] in
theorem aaNearest_slide (s : Shape K) (u w X Y : Int) : aaNearest (s.slide u w) (X + u) (Y + w) = aaNearest s X Y := by
  unfold aaNearest
  simp only [slide_x, slide_y]
  rfl

omit [IsStrictOrderedRing K] in
theorem aaFarthest_slide (s : Shape K) (u w X Y : Int) : aaFarthest (s.slide u w) (X + u) (Y + w) = aaFarthest s X Y := by
  unfold aaFarthest
  simp only [slide_x, slide_y, aaNearest_slide]
  rfl

omit [IsStrictOrderedRing K] in
theorem rrAntialiased_slide (s : Shape K) (u w X Y : Int) :
    rrAntialiased (s.slide u w) (X + u) (Y + w) = rrAntialiased s X Y := by
  unfold rrAntialiased
  simp only [aaNearest_slide, aaFarthest_slide]
  rfl

omit [LinearOrder K] [IsStrictOrderedRing K] in
theorem rrPlain_slide (s : Shape K) (u w X Y : Int) : rrPlain (s.slide u w) (X + u) (Y + w) = rrPlain s X Y := by
  have e1 : ((Y + w : Int) : K) + 1 / 2 - (s.slide u w).y = (Y : K) + 1 / 2 - s.y := by
    have := slide_y s u w Y
    linear_combination -this
  have e2 : ((X + u : Int) : K) + 1 / 2 - (s.slide u w).x = (X : K) + 1 / 2 - s.x := by
    have := slide_x s u w X
    linear_combination -this
  unfold rrPlain
  simp only [e1, e2]
  rfl

omit [IsStrictOrderedRing K] in
theorem rrAt_slide (s : Shape K) (u w X Y : Int) : rrAt (s.slide u w) (X + u) (Y + w) = rrAt s X Y := by
  unfold rrAt
  rw [rrAntialiased_slide, rrPlain_slide]
  rfl

theorem opacityAt_slide [FloorRing K] (s : Shape K) (u w X Y : Int) :
    opacityAt (s.slide u w) (X + u) (Y + w) = opacityAt s X Y := by
  unfold opacityAt
  rw [rrAt_slide]
  rfl

end Verif.Mask

namespace Verif.Painting
open Verif.Full Verif.Dab Verif.Engine Verif.Blend Verif.Mask

variable {K R σ : Type} [Field K] [LinearOrder K] [IsStrictOrderedRing K] [FloorRing K]

/-- The operation somewhere else. -/
def slideOp (u w : Int) (op : Op K) : Op K := { op with x := op.x + u, y := op.y + w }

omit [IsStrictOrderedRing K] in
theorem prepare_slide (u w : Int) (a : Args K) :
    prepare (slideDab (u : K) (w : K) a) = (prepare a).map (Option.map (slideOp u w)) := by
  unfold prepare slideDab
  dsimp only
  cases toInt (a.posterizeNum * 100 + 1 / 2) with
  | error f => rfl
  | ok n =>
    simp only [bind, Except.bind]
    by_cases h1 : a.radius < 1 / 10
    · rw [if_pos h1, if_pos h1]; rfl
    by_cases h2 : clampK a.hardness 0 1 = 0
    · rw [if_neg h1, if_pos h2, if_neg h1, if_pos h2]; rfl
    by_cases h3 : clampK a.softness 0 1 = 1
    · rw [if_neg h1, if_neg h2, if_pos h3, if_neg h1, if_neg h2, if_pos h3]; rfl
    by_cases h4 : clampK a.opaque' 0 1 = 0
    · rw [if_neg h1, if_neg h2, if_neg h3, if_pos h4, if_neg h1, if_neg h2, if_neg h3, if_pos h4]; rfl
    rw [if_neg h1, if_neg h2, if_neg h3, if_neg h4, if_neg h1, if_neg h2, if_neg h3, if_neg h4]; rfl

omit [IsStrictOrderedRing K] in
theorem visible_slide (u w : Int) (a : Args K) : visible (slideDab (u : K) (w : K) a) = visible a := by
  unfold visible
  rw [prepare_slide]
  cases prepare a with
  | error f => rfl
  | ok o => cases o <;> rfl

/-- Without symmetry a dab is drawn once, if it is visible. -/
theorem drawDab_plain {b : Build} {env : Dab.Env K} {trig : Symm.Trig K} {a : Args K} {s s' : FSurf K} {m : Bool}
    {c : Canvas} (h : Full.drawDab b env s a = .ok (m, s')) (hs : Sound b env trig s c) (ha : s.symm.active = false) :
    s'.symm = s.symm ∧ ∃ c', Sound b env trig s' c' ∧
      ((prepare a = .ok none ∧ c' = c) ∨ ∃ op, prepare a = .ok (some op) ∧ c' = Spec.Surf.drawNow (kind env) c op) := by
  unfold Full.drawDab at h
  obtain ⟨⟨m1, s1⟩, h1, h'⟩ := except_bind_ok h
  clear h
  rename' h' => h
  rcases drawInternal_cases h1 with ⟨rfl, rfl, hp⟩ | ⟨rfl, op, surf, hp, hd, -, -, rfl⟩
  · simp only [Bool.false_eq_true, if_false, pure, Except.pure] at h
    cases h
    exact ⟨rfl, c, ⟨hs.stands, hs.proper, hs.cap, hs.big, hs.symm⟩, .inl ⟨hp, rfl⟩⟩
  · simp only [if_true] at h
    obtain ⟨⟨ps, used⟩, h2, h⟩ := except_bind_ok h
    obtain ⟨s2, h3, h⟩ := except_bind_ok h
    simp only [pure, Except.pure] at h
    cases h
    have hps : ps = [] := by
      unfold Symm.passes at h2
      rw [if_neg (by rw [ha]; simp)] at h2
      cases h2
      rfl
    subst hps
    simp only [List.foldlM_nil, pure, Except.pure] at h3
    cases h3
    obtain ⟨st, hst⟩ := hs.stands
    obtain ⟨st', hst'⟩ := Surf.stands_dab hst op (tilesOf_nodup op) hd
    refine ⟨rfl, _, ⟨⟨st', hst'⟩, ?_, hs.cap, hs.big, hs.symm⟩, .inr ⟨op, hp, rfl⟩⟩
    intro i
    simp only [setBox]
    split_ifs
    · exact updateBox_proper _ (hs.proper _) op
    · exact hs.proper i

theorem drawDab_answer {b : Build} {env : Dab.Env K} {a : Args K} {s s' : FSurf K} {m : Bool}
    (h : Full.drawDab b env s a = .ok (m, s')) : m = visible a := by
  unfold Full.drawDab at h
  obtain ⟨⟨m1, s1⟩, h1, h'⟩ := except_bind_ok h
  clear h
  rename' h' => h
  rcases drawInternal_cases h1 with ⟨rfl, rfl, hp⟩ | ⟨rfl, op, surf, hp, -⟩
  · simp only [Bool.false_eq_true, if_false, pure, Except.pure] at h
    cases h
    unfold visible; rw [hp]
  · simp only [if_true] at h
    obtain ⟨⟨ps, used⟩, h2, h⟩ := except_bind_ok h
    obtain ⟨s2, h3, h⟩ := except_bind_ok h
    simp only [pure, Except.pure] at h
    cases h
    unfold visible; rw [hp]

theorem draw_answer (b : Build) (env : Dab.Env K) (w : World K) (a : Args K) : (draw b env w a).1 = visible a := by
  unfold draw
  cases hs : w.surf with
  | error f => rfl
  | ok s =>
    dsimp only
    cases hd : Full.drawDab b env s a with
    | error f => rfl
    | ok r => exact drawDab_answer hd

/-- What a dab does to a pixel. -/
theorem drawNow_pixel {env : Dab.Env K} (he : env.Valid) {op : Op K} (ho : op.Valid) {c : Canvas} {X Y : Int} {q : Px}
    (h : pixel (Spec.Surf.drawNow (kind env) c op) X Y = .ok q) :
    ∃ p, pixel c X Y = .ok p ∧
      (if opacity env op X Y = 0 then .ok p else pixelStep (modes env op) (opacity env op X Y) p) = .ok q := by
  obtain ⟨p, hp⟩ := pixel_sticky h
  refine ⟨p, hp, ?_⟩
  have hp' := hp
  have h' := h
  unfold pixel at hp' h'
  cases hc : c (tileOfPixel X Y) with
  | error e => rw [hc] at hp'; cases hp'
  | ok t =>
    cases hd : Spec.Surf.drawNow (kind env) c op (tileOfPixel X Y) with
    | error e => rw [hd] at h'; cases h'
    | ok t' =>
      have := dab_pixelwise he ho c X Y t t' hc hd
      rw [hp, h] at this
      rw [this]
      rfl

theorem slideOp_valid {u w : Int} {op : Op K} (h : op.Valid) : (slideOp u w op).Valid := by
  cases h
  constructor <;> assumption

/-- Drawing keeps two pictures the same. -/
theorem drawNow_same {env : Dab.Env K} (he : env.Valid) {u w : Int} {op : Op K} (ho : op.Valid) {c c' : Canvas}
    (h : SamePicture u w c c') :
    SamePicture u w (Spec.Surf.drawNow (kind env) c op) (Spec.Surf.drawNow (kind env) c' (slideOp u w op)) := by
  intro X Y p p' hp hp'
  obtain ⟨q, hq, e⟩ := drawNow_pixel he ho hp
  obtain ⟨q', hq', e'⟩ := drawNow_pixel he (slideOp_valid ho) hp'
  have hqq := h X Y q q' hq hq'
  subst hqq
  have h1 : opacity env (slideOp u w op) (X + u) (Y + w) = opacity env op X Y := Mask.opacityAt_slide (shapeOf env op) u w X Y
  have h2 : modes env (slideOp u w op) = modes env op := rfl
  rw [h1, h2, e] at e'
  exact (Except.ok.inj e').symm

/-- Two surfaces that show the same picture up to the shift, unless one of them ran into a fault. -/
def SameWorld (b : Build) (env : Dab.Env K) (trig : Symm.Trig K) (u w : Int) (v v' : World K) : Prop :=
  ∀ s s', v.surf = .ok s → v'.surf = .ok s' → s.symm.active = false ∧ s'.symm.active = false ∧
    ∃ c c', Sound b env trig s c ∧ Sound b env trig s' c' ∧ SamePicture u w c c'

theorem draw_ok {b : Build} {env : Dab.Env K} {v : World K} {a : Args K} {s' : FSurf K} (h : (draw b env v a).2.surf = .ok s') :
    ∃ s m, v.surf = .ok s ∧ Full.drawDab b env s a = .ok (m, s') := by
  unfold draw at h
  cases hs : v.surf with
  | error f => rw [hs] at h; simp only [hs, reduceCtorEq] at h
  | ok s =>
    rw [hs] at h
    dsimp only at h
    cases hd : Full.drawDab b env s a with
    | error f => rw [hd] at h; cases h
    | ok r =>
      rw [hd] at h
      cases h
      exact ⟨s, r.1, rfl, hd⟩

theorem draws_same (e : Engine.Env K R σ) (b : Build) {env : Dab.Env K} (he : env.Valid) (trig : Symm.Trig K) (sch : Schedule)
    (u w : Int) : Draws (onTiles e b env sch) (u : K) (w : K) (SameWorld b env trig u w) := by
  intro v v' a h
  refine ⟨?_, ?_⟩
  · show (draw b env v' (slideDab (u : K) (w : K) a)).1 = (draw b env v a).1
    rw [draw_answer, draw_answer, visible_slide]
  · intro s s' hs hs'
    obtain ⟨s0, m, h0, d0⟩ := draw_ok (show (draw b env v a).2.surf = .ok s from hs)
    obtain ⟨s1, m', h1, d1⟩ := draw_ok (show (draw b env v' (slideDab (u : K) (w : K) a)).2.surf = .ok s' from hs')
    obtain ⟨a0, a1, c, c', k0, k1, k2⟩ := h s0 s1 h0 h1
    obtain ⟨e0, d, f0, g0⟩ := drawDab_plain d0 k0 a0
    obtain ⟨e1, d', f1, g1⟩ := drawDab_plain d1 k1 a1
    refine ⟨by rw [e0]; exact a0, by rw [e1]; exact a1, d, d', f0, f1, ?_⟩
    rw [prepare_slide] at g1
    rcases g0 with ⟨p0, rfl⟩ | ⟨op, p0, rfl⟩
    · rw [p0] at g1
      rcases g1 with ⟨-, rfl⟩ | ⟨op, q, -⟩
      · exact k2
      · cases q
    · rw [p0] at g1
      rcases g1 with ⟨q, -⟩ | ⟨op', q, rfl⟩
      · cases q
      · cases q
        exact drawNow_same he (prepare_valid p0) k2

end Verif.Painting
