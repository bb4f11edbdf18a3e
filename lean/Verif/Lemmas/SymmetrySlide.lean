import Verif.Lemmas.PaintNow
import Verif.Lemmas.PaintingSlide
import Verif.Lemmas.EngineFollow
import Verif.Props.C24_Symmetry

/-!
# Symmetric copies around a centre that is somewhere else
-/

namespace Verif.Symm
variable {K : Type} [Field K] [LinearOrder K]

/-- The same symmetry around a centre that is somewhere else; or none. -/
structure SameSymmetry (u w : K) (d d' : Data K) : Prop where
  active : d'.active = d.active
  allocated : d.active = true → (d'.num = 0 ↔ d.num = 0)
  current : d.active = true → d'.current = { d.current with cx := d.current.cx + u, cy := d.current.cy + w }

/-- A setting with the centre somewhere else. -/
def State.slide (s : State K) (u w : K) : State K := { s with cx := s.cx + u, cy := s.cy + w }

omit [LinearOrder K] in
theorem count_slide (s : State K) (u w : K) : count (s.slide u w) = count s := rfl

/-- Two maps of the plane, the second one after the shift the other way. -/
def After (u w : K) (t t' : Transform K) : Prop :=
  Affine t ∧ Affine t' ∧ ∀ x y, point t' (x + u) (y + w) = point t x y

omit [LinearOrder K] in
theorem After.multiply {u w : K} {t t' m : Transform K} (h : After u w t t') (hm : Affine m) :
    After u w (Symm.multiply t m) (Symm.multiply t' m) := by
  obtain ⟨h1, h2, h3⟩ := h
  exact ⟨affine_multiply h1 hm, affine_multiply h2 hm, fun x y => by rw [point_multiply h2 (x + u, y + w), point_multiply h1 (x, y), h3]⟩

omit [LinearOrder K] in
theorem After.reflect {trig : Trig K} {u w : K} {t t' : Transform K} (h : After u w t t') (a : K) :
    After u w (Symm.reflect trig t a) (Symm.reflect trig t' a) := h.multiply ⟨rfl, rfl, rfl⟩

omit [LinearOrder K] in
theorem After.rotateCw {trig : Trig K} {u w : K} {t t' : Transform K} (h : After u w t t') (a : K) :
    After u w (Symm.rotateCw trig t a) (Symm.rotateCw trig t' a) := h.multiply ⟨rfl, rfl, rfl⟩

omit [LinearOrder K] in
theorem after_start (u w cx cy : K) : After u w (translate unit (-cx) (-cy)) (translate unit (-(cx + u)) (-(cy + w))) := by
  refine ⟨affine_translate affine_unit _ _, affine_translate affine_unit _ _, fun x y => ?_⟩
  unfold translate
  rw [point_multiply affine_unit (x + u, y + w), point_multiply affine_unit (x, y)]
  simp only [point, unit]
  ext <;> dsimp only <;> ring

omit [LinearOrder K] in
theorem raw_slide (trig : Trig K) (s : State K) (u w : K) {i : Int} (h0 : 0 ≤ i) (h : i < count s) :
    After u w (raw trig s i) (raw trig (s.slide u w) i) := by
  have k := after_start u w s.cx s.cy
  obtain ⟨type, cx, cy, angle, lines⟩ := s
  unfold raw State.slide
  cases type with
  | vertical => exact k.reflect _
  | horizontal => exact k.reflect _
  | verthorz =>
    dsimp only
    by_cases h1 : i = 0
    · rw [if_pos h1, if_pos h1]
      exact k.reflect _
    · rw [if_neg h1, if_neg h1]
      by_cases h2 : i = 1
      · rw [if_pos h2, if_pos h2]
        exact (k.reflect _).reflect _
      · rw [if_neg h2, if_neg h2]
        exact ((k.reflect _).reflect _).reflect _
  | rotational => exact k.rotateCw _
  | snowflake =>
    dsimp only
    by_cases h1 : i < lines - 1
    · rw [if_pos h1, if_pos h1]
      exact k.rotateCw _
    · rw [if_neg h1, if_neg h1]
      exact (k.rotateCw _).reflect _
  | other t =>
    unfold count at h
    dsimp only at h
    omega

omit [LinearOrder K] in
theorem mat_slide (trig : Trig K) (s : State K) (u w : K) {i : Int} (h0 : 0 ≤ i) (h : i < count s) (x y : K) :
    point (mat trig (s.slide u w) i) (x + u) (y + w) =
      ((point (mat trig s i) x y).1 + u, (point (mat trig s i) x y).2 + w) := by
  obtain ⟨h1, h2, h3⟩ := raw_slide trig s u w h0 h
  unfold mat translate
  rw [point_multiply h2 (x + u, y + w), point_multiply h1 (x, y), h3]
  generalize point (raw trig s i) x y = p
  simp only [point, State.slide]
  ext <;> dsimp only <;> ring

/-- A copy somewhere else. -/
def Pass.slide (p : Pass K) (u w : K) : Pass K := { p with x := p.x + u, y := p.y + w }

variable [IsStrictOrderedRing K] [FloorRing K]

theorem pass_slide {trig : Trig K} {u w : K} {d d' : Data K} (hi : Inv trig d) (hi' : Inv trig d')
    (hc : d'.current = d.current.slide u w) {i : Int} (h0 : 0 ≤ i) (h : i < count d.current) (x y angle : K) (n : Int) :
    pass d' i (x + u) (y + w) angle n = (pass d i x y angle n).map (fun p => p.slide u w) := by
  rw [pass_ok hi.holds h0 h, pass_ok hi'.holds h0 (by rw [hc]; exact h), hc, mat_slide trig d.current u w h0 h]
  rfl

theorem mapM_slide {ι : Type} {f f' : ι → Except Fault (Pass K)} {u w : K} (l : List ι)
    (h : ∀ k ∈ l, f' k = (f k).map (fun p => p.slide u w)) : l.mapM f' = (l.mapM f).map (List.map fun p => p.slide u w) := by
  induction l with
  | nil => rfl
  | cons k l ih =>
    rw [List.mapM_cons, List.mapM_cons, h k List.mem_cons_self, ih fun j q => h j (List.mem_cons_of_mem _ q)]
    cases f k with
    | error err => rfl
    | ok p =>
      cases l.mapM f <;> rfl

/-- The copies of a dab somewhere else, around the centre somewhere else. -/
theorem passes_slide {trig : Trig K} {u w : K} {d d' : Data K} (hi : Inv trig d) (hi' : Inv trig d')
    (hs : SameSymmetry u w d d') (numB : Int) (x y angle : K) :
    passes d' numB (x + u) (y + w) angle =
      (passes d numB x y angle).map (fun r => (r.1.map (fun p => p.slide u w), r.2)) := by
  unfold passes
  by_cases ha : d.active = true ∧ d.num ≠ 0
  · obtain ⟨a1, a2⟩ := ha
    have ha' : d'.active = true ∧ d'.num ≠ 0 := ⟨hs.active.trans a1, fun h => a2 ((hs.allocated a1).1 h)⟩
    have hc : d'.current = d.current.slide u w := hs.current a1
    simp only [if_pos (show d.active = true ∧ d.num ≠ 0 from ⟨a1, a2⟩), if_pos ha']
    have ht : d'.current.type = d.current.type := by rw [hc]; rfl
    have hn : d'.current.angle = d.current.angle := by rw [hc]; rfl
    have hl : d'.current.lines = d.current.lines := by rw [hc]; rfl
    have key {i : Int} (h0 : 0 ≤ i) (h : i < count d.current) (angle : K) (n : Int) :=
      pass_slide hi hi' hc h0 h x y angle n
    have rotational (h : d.current.type = .rotational ∨ d.current.type = .snowflake) :
        rotationalPasses d' numB (x + u) (y + w) angle =
          (rotationalPasses d numB x y angle).map (List.map fun p => p.slide u w) := by
      unfold rotationalPasses
      dsimp only
      rw [hl, ht]
      refine mapM_slide _ fun k hk => key ?_ ?_ _ _
      · rw [mem_cRange] at hk; omega
      · rw [mem_cRange] at hk
        unfold count
        rcases h with h | h <;> rw [h] <;> simp only <;> omega
    rw [ht, hn, hl]
    cases hy : d.current.type with
    | vertical =>
      have hk : count d.current = 1 := by unfold count; rw [hy]
      dsimp only
      rw [key (i := 0) (by omega) (by omega)]
      cases pass d 0 x y _ _ <;> rfl
    | horizontal =>
      have hk : count d.current = 1 := by unfold count; rw [hy]
      dsimp only
      rw [key (i := 0) (by omega) (by omega)]
      cases pass d 0 x y _ _ <;> rfl
    | verthorz =>
      have hk : count d.current = 3 := by unfold count; rw [hy]
      dsimp only
      rw [key (i := 0) (by omega) (by omega), key (i := 1) (by omega) (by omega), key (i := 2) (by omega) (by omega)]
      cases pass d 0 x y _ _ with
      | error err => rfl
      | ok p =>
        cases pass d 1 x y _ _ with
        | error err => rfl
        | ok p =>
          cases pass d 2 x y _ _ <;> rfl
    | rotational =>
      dsimp only
      rw [rotational (.inl hy)]
      cases rotationalPasses d numB x y angle <;> rfl
    | snowflake =>
      have snow : snowflakePasses d' numB (x + u) (y + w) angle =
          (snowflakePasses d numB x y angle).map (List.map fun p => p.slide u w) := by
        unfold snowflakePasses
        dsimp only
        rw [hl, hn]
        refine mapM_slide _ fun k hk => key ?_ ?_ _ _
        · rw [mem_cRange] at hk; omega
        · rw [mem_cRange] at hk
          unfold count
          rw [hy]; simp only; omega
      dsimp only
      rw [snow, rotational (.inr hy)]
      cases snowflakePasses d numB x y angle with
      | error err => rfl
      | ok a =>
        cases rotationalPasses d numB x y angle with
        | error err => rfl
        | ok b =>
          simp only [bind, Except.bind, pure, Except.pure, Except.map, List.map_append]
    | other t => rfl
  · have ha' : ¬ (d'.active = true ∧ d'.num ≠ 0) := fun h => by
      have a1 : d.active = true := hs.active.symm.trans h.1
      exact ha ⟨a1, fun q => h.2 ((hs.allocated a1).2 q)⟩
    rw [if_neg ha, if_neg ha']
    rfl

end Verif.Symm

namespace Verif.Painting
open Verif.Full Verif.Dab Verif.Engine Verif.Symm

variable {K R σ : Type} [Field K] [LinearOrder K] [IsStrictOrderedRing K] [FloorRing K]

theorem copies_slide {trig : Trig K} {u w : K} {d d' : Symm.Data K} (hi : Symm.Inv trig d) (hi' : Symm.Inv trig d')
    (hs : SameSymmetry u w d d') (a : Args K) :
    Spec.Now.copies d' (slideDab u w a) = (Spec.Now.copies d a).map (slideDab u w) := by
  unfold Spec.Now.copies
  have := passes_slide hi hi' hs 32 a.x a.y a.angle
  rw [show (slideDab u w a).x = a.x + u from rfl, show (slideDab u w a).y = a.y + w from rfl,
    show (slideDab u w a).angle = a.angle from rfl, this]
  cases passes d 32 a.x a.y a.angle with
  | error err => rfl
  | ok r =>
    simp only [Except.map, List.map_map]
    rfl

theorem dabAt_slide {env : Dab.Env K} (he : env.Valid) {u w : Int} {c c' : Canvas} (h : SamePicture u w c c') (a : Args K) :
    SamePicture u w (Spec.Now.dabAt env c a) (Spec.Now.dabAt env c' (slideDab (u : K) (w : K) a)) := by
  unfold Spec.Now.dabAt
  rw [prepare_slide]
  cases hp : prepare a with
  | error err => exact h
  | ok o =>
    cases o with
    | none => exact h
    | some op => exact drawNow_same he (prepare_valid hp) h

theorem dabs_slide {env : Dab.Env K} (he : env.Valid) {u w : Int} (l : List (Args K)) : ∀ {c c' : Canvas},
    SamePicture u w c c' →
    SamePicture u w (l.foldl (Spec.Now.dabAt env) c) ((l.map (slideDab (u : K) (w : K))).foldl (Spec.Now.dabAt env) c') := by
  induction l with
  | nil => intro c c' h; exact h
  | cons a l ih => intro c c' h; exact ih (dabAt_slide he h a)

/-- A picture that knows its symmetry. -/
def drawWith (env : Dab.Env K) (v : Spec.Now.Picture × Symm.Data K) (a : Args K) : Bool × (Spec.Now.Picture × Symm.Data K) :=
  let r := Spec.Now.draw env v.2 v.1 a
  (r.1, (r.2, v.2))

def lookWith (env : Dab.Env K) (sch : Schedule) (v : Spec.Now.Picture × Symm.Data K) (x y : Int) (radius paint : K) :
    Color.Rgba K × (Spec.Now.Picture × Symm.Data K) :=
  let r := Spec.Now.getColor env sch v.1 x y radius paint
  (r.1, (r.2, v.2))

/-- Two pictures that are the same up to the shift. -/
def SlidPictures (trig : Trig K) (u w : Int) (v v' : Spec.Now.Picture × Symm.Data K) : Prop :=
  Symm.Inv trig v.2 ∧ Symm.Inv trig v'.2 ∧ SameSymmetry (u : K) (w : K) v.2 v'.2 ∧ SamePicture u w v.1.canvas v'.1.canvas

theorem draws_with (e : Engine.Env K R σ) {env : Dab.Env K} (he : env.Valid) (trig : Trig K) (sch : Schedule) (u w : Int) :
    Draws (e.on (drawWith env) (lookWith env sch)) (u : K) (w : K) (SlidPictures trig u w) := by
  rintro ⟨v, d⟩ ⟨v', d'⟩ a ⟨h1, h2, h3, h4⟩
  dsimp only at h1 h2 h3 h4
  show (Spec.Now.draw env d' v' (slideDab (u : K) (w : K) a)).1 = (Spec.Now.draw env d v a).1 ∧
    SlidPictures trig u w ((Spec.Now.draw env d v a).2, d) ((Spec.Now.draw env d' v' (slideDab (u : K) (w : K) a)).2, d')
  unfold Spec.Now.draw
  rw [visible_slide]
  cases visible a with
  | false => exact ⟨rfl, h1, h2, h3, h4⟩
  | true =>
    refine ⟨rfl, h1, h2, h3, ?_⟩
    have := dabs_slide he (a :: Spec.Now.copies d a) h4
    rw [List.map_cons, ← copies_slide h1 h2 h3] at this
    exact this

/-- Painting at once with the symmetry beside it. -/
theorem paint_with (e : Engine.Env K R σ) (env : Dab.Env K) (sch : Schedule) (d : Symm.Data K) (fuel : Nat) (b : Brush K R)
    (v : Spec.Now.Picture) (ms : List (Motion K)) {r : Brush K R × Spec.Now.Picture}
    (h : Spec.Now.paint e env d sch fuel b v ms = .ok r) :
    strokes (e.on (drawWith env) (lookWith env sch)) fuel b (v, d) ms = .ok (r.1, (r.2, d)) := by
  have H : Follows (e.on (Spec.Now.draw env d) (Spec.Now.getColor env sch)) (drawWith env) (lookWith env sch)
      (fun s t => t = (s, d)) (fun _ => True) :=
    { draw := by rintro s t a rfl -; exact ⟨rfl, rfl⟩
      getColor := by rintro s t x y r p rfl -; exact ⟨rfl, rfl⟩
      drawn := fun _ _ _ => trivial
      sampled := fun _ _ _ _ _ _ => trivial }
  obtain ⟨t, h1, h2⟩ := strokes_follow H ms (t := (v, d)) rfl h trivial
  rw [h2] at h1
  exact h1

end Verif.Painting
