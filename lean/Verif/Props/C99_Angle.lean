import Verif.Lemmas.EngineSpin
import Verif.Props.C86_Mirror
import Verif.Props.C88_Colourless

/-!
# C99: a round dab has no angle

Who paints with round dabs does not expect the setting for the angle of the dabs to change anything; and who turns an
elliptical brush by half a turn gets the same brush.
-/

namespace Verif.Mask

section
variable {K : Type} [Field K] [LinearOrder K] [IsStrictOrderedRing K] [FloorRing K]

/-- Two shapes with equal pixels have equal masks. -/
theorem render_congr {s : Shape K} {sn cs : K} (h : ∀ xp yp, rrAt { s with sn := sn, cs := cs } xp yp = rrAt s xp yp) :
    render { s with sn := sn, cs := cs } = render s := by
  unfold render
  have hw : window { s with sn := sn, cs := cs } = window s := rfl
  have ho : ∀ rr, opaU16 { s with sn := sn, cs := cs } rr = opaU16 s rr := fun rr => rfl
  simp only [hw, h, ho]

omit [IsStrictOrderedRing K] [FloorRing K] in
theorem rrAt_round {s : Shape K} (hr : 3 ≤ s.radius) (ha : s.aspect = 1) (hc : s.sn * s.sn + s.cs * s.cs = 1) {sn cs : K}
    (h : sn * sn + cs * cs = 1) (xp yp : Int) : rrAt { s with sn := sn, cs := cs } xp yp = rrAt s xp yp := by
  unfold rrAt
  dsimp only
  rw [if_neg (not_lt.mpr hr), if_neg (not_lt.mpr hr)]
  unfold rrPlain
  dsimp only
  rw [ha]
  congr 1
  generalize (yp : K) + 1 / 2 - s.y = yy
  generalize (xp : K) + 1 / 2 - s.x = xx
  linear_combination (xx * xx + yy * yy) * (h - hc) * (1 / (s.radius * s.radius))

omit [IsStrictOrderedRing K] [FloorRing K] in
theorem rrAt_half {s : Shape K} (hr : 3 ≤ s.radius) (xp yp : Int) :
    rrAt { s with sn := -s.sn, cs := -s.cs } xp yp = rrAt s xp yp := by
  unfold rrAt
  dsimp only
  rw [if_neg (not_lt.mpr hr), if_neg (not_lt.mpr hr)]
  unfold rrPlain
  dsimp only
  congr 1
  ring

end
end Verif.Mask

namespace Verif.Dab
open Verif.Mask

section
variable {K : Type} [Field K] [LinearOrder K] [IsStrictOrderedRing K] [FloorRing K]

/-- Turning an operation whose mask stays the same. -/
theorem kind_turn {env : Env K} (op : Op K) (α : K)
    (h : ∀ t : TileIndex, render ((shapeOf env { op with angle := α }).inTile t.x t.y) = render ((shapeOf env op).inTile t.x t.y)) :
    (kind env).tilesOf { op with angle := α } = (kind env).tilesOf op ∧
      ∀ t v, (kind env).processOp t { op with angle := α } v = (kind env).processOp t op v := by
  refine ⟨rfl, fun t v => ?_⟩
  show v.bind (processOp env t { op with angle := α }) = v.bind (processOp env t op)
  congr 1
  funext tile
  unfold processOp
  rw [h]
  rfl

end
end Verif.Dab

namespace Verif.Painting
open Verif.Full Verif.Engine Verif.Dab Verif.Mask Verif.Symm

section
variable {K R σ : Type} [Field K] [LinearOrder K] [IsStrictOrderedRing K] [FloorRing K]

/-- Two angles that mean the same for a dab: any two for a round dab, or half a turn. -/
def SameAngle (env : Dab.Env K) (a : Args K) (α : K) : Prop :=
  a.aspect ≤ 1 ∨ (env.sin α = -env.sin a.angle ∧ env.cos α = -env.cos a.angle)

theorem prepare_turn (a : Args K) (α : K) :
    prepare { a with angle := α } = (prepare a).map (Option.map fun op => { op with angle := α }) := by
  unfold prepare
  dsimp only
  cases toInt (a.posterizeNum * 100 + 1 / 2) with
  | error f => rfl
  | ok n =>
    simp only [bind, Except.bind, pure, Except.pure]
    by_cases q1 : a.radius < 1 / 10
    · rw [if_pos q1, if_pos q1]; rfl
    rw [if_neg q1, if_neg q1]
    by_cases q2 : clampK a.hardness 0 1 = 0
    · rw [if_pos q2, if_pos q2]; rfl
    rw [if_neg q2, if_neg q2]
    by_cases q3 : clampK a.softness 0 1 = 1
    · rw [if_pos q3, if_pos q3]; rfl
    rw [if_neg q3, if_neg q3]
    by_cases q4 : clampK a.opaque' 0 1 = 0
    · rw [if_pos q4, if_pos q4]; rfl
    rw [if_neg q4, if_neg q4]
    rfl

theorem prepare_geometry {a : Args K} {op : Op K} (h : prepare a = .ok (some op)) :
    op.radius = a.radius ∧ op.angle = a.angle ∧ op.aspect = if a.aspect < 1 then 1 else a.aspect := by
  unfold prepare at h
  dsimp only at h
  cases hn : toInt (a.posterizeNum * 100 + 1 / 2) with
  | error f => rw [hn] at h; cases h
  | ok n =>
    rw [hn] at h
    simp only [bind, Except.bind, pure, Except.pure] at h
    by_cases q1 : a.radius < 1 / 10
    · rw [if_pos q1] at h; cases h
    rw [if_neg q1] at h
    by_cases q2 : clampK a.hardness 0 1 = 0
    · rw [if_pos q2] at h; cases h
    rw [if_neg q2] at h
    by_cases q3 : clampK a.softness 0 1 = 1
    · rw [if_pos q3] at h; cases h
    rw [if_neg q3] at h
    by_cases q4 : clampK a.opaque' 0 1 = 0
    · rw [if_pos q4] at h; cases h
    rw [if_neg q4] at h
    cases h
    exact ⟨rfl, rfl, rfl⟩

theorem visible_turn (a : Args K) (α : K) : visible { a with angle := α } = visible a := by
  unfold visible
  rw [prepare_turn]
  cases prepare a with
  | error f => rfl
  | ok o => cases o <;> rfl

/-- **C99** A call of `draw_dab` for a dab of radius at least 3: any angle will do if the dab is round, and half a turn
changes nothing in any case. -/
theorem dab_has_no_angle_partial {env : Dab.Env K} (he : env.Valid) (c : Canvas) {a : Args K} {α : K} (hr : 3 ≤ a.radius)
    (h : SameAngle env a α) : Spec.Now.dabAt env c { a with angle := α } = Spec.Now.dabAt env c a := by
  unfold Spec.Now.dabAt
  rw [prepare_turn]
  cases hp : prepare a with
  | error f => rfl
  | ok o =>
    cases o with
    | none => rfl
    | some op =>
      obtain ⟨g1, g2, g3⟩ := prepare_geometry hp
      have hrad : ∀ t : TileIndex, 3 ≤ ((shapeOf env op).inTile t.x t.y).radius := fun t => by
        show 3 ≤ op.radius
        rw [g1]; exact hr
      have key : ∀ t : TileIndex, render ((shapeOf env { op with angle := α }).inTile t.x t.y) =
          render ((shapeOf env op).inTile t.x t.y) := by
        intro t
        rcases h with h | ⟨h1, h2⟩
        · refine render_congr (s := (shapeOf env op).inTile t.x t.y) (sn := env.sin α) (cs := env.cos α) (rrAt_round (hrad t) ?_
            (he.circle op.angle) (he.circle α))
          show (if op.aspect < 1 then 1 else op.aspect) = 1
          rw [g3]
          by_cases q : a.aspect < 1
          · simp [q]
          · rw [if_neg q, if_neg q]
            exact le_antisymm h (not_lt.mp q)
        · have := render_congr (s := (shapeOf env op).inTile t.x t.y) (sn := -env.sin op.angle) (cs := -env.cos op.angle)
            (rrAt_half (hrad t))
          rw [← this, g2, ← h1, ← h2]
          rfl
      obtain ⟨k1, k2⟩ := kind_turn op α key
      show Spec.Surf.drawNow (kind env) c { op with angle := α } = Spec.Surf.drawNow (kind env) c op
      unfold Spec.Surf.drawNow
      simp only [k1, k2]

/-! ### Symmetric copies -/

/-- Where the copies are. -/
def spots (d : Data K) (x y α : K) : Option (List (K × K)) :=
  match passes d 32 x y α with
  | .ok r => some (r.1.map fun p => (p.x, p.y))
  | .error _ => none

theorem mapM_spots {ι : Type} (d : Data K) (x y : K) (i : ι → Int) (f f' : ι → K) (b : ι → Int) : ∀ l : List ι,
    (∃ err, l.mapM (fun k => pass d (i k) x y (f k) (b k)) = .error err ∧
      l.mapM (fun k => pass d (i k) x y (f' k) (b k)) = .error err) ∨
    ∃ r r', l.mapM (fun k => pass d (i k) x y (f k) (b k)) = .ok r ∧ l.mapM (fun k => pass d (i k) x y (f' k) (b k)) = .ok r' ∧
      r'.map (fun p => (p.x, p.y)) = r.map (fun p => (p.x, p.y))
  | [] => .inr ⟨[], [], rfl, rfl, rfl⟩
  | k :: l => by
    rw [List.mapM_cons, List.mapM_cons]
    unfold pass
    cases hm : load d (i k) with
    | error err => exact .inl ⟨err, rfl, rfl⟩
    | ok m =>
      rcases mapM_spots d x y i f f' b l with ⟨err, h1, h2⟩ | ⟨r, r', h1, h2, h3⟩
      · left
        unfold pass at h1 h2
        exact ⟨err, by simp only [bind, Except.bind, pure, Except.pure] at h1 ⊢; rw [h1],
          by simp only [bind, Except.bind, pure, Except.pure] at h2 ⊢; rw [h2]⟩
      · right
        unfold pass at h1 h2
        refine ⟨⟨(point m x y).1, (point m x y).2, f k, b k⟩ :: r, ⟨(point m x y).1, (point m x y).2, f' k, b k⟩ :: r', ?_, ?_, ?_⟩
        · simp only [bind, Except.bind, pure, Except.pure] at h1 ⊢; rw [h1]
        · simp only [bind, Except.bind, pure, Except.pure] at h2 ⊢; rw [h2]
        · simp only [List.map_cons, h3]

theorem pass_anywhere (d : Data K) (i : Int) (x y α β : K) (n : Int) :
    (∃ err, pass d i x y α n = .error err ∧ pass d i x y β n = .error err) ∨
    ∃ p q, pass d i x y α n = .ok p ∧ pass d i x y β n = .ok q ∧ (p.x, p.y) = (q.x, q.y) := by
  unfold pass
  cases load d i with
  | error err => exact .inl ⟨err, rfl, rfl⟩
  | ok m => exact .inr ⟨_, _, rfl, rfl, rfl⟩

theorem spots_turn (d : Data K) (x y α β : K) : spots d x y α = spots d x y β := by
  have hrot : (∃ err, rotationalPasses d 32 x y α = .error err ∧ rotationalPasses d 32 x y β = .error err) ∨
      ∃ r r', rotationalPasses d 32 x y α = .ok r ∧ rotationalPasses d 32 x y β = .ok r' ∧
        r'.map (fun p => (p.x, p.y)) = r.map (fun p => (p.x, p.y)) := mapM_spots d x y _ _ _ _ _
  have hsnow : (∃ err, snowflakePasses d 32 x y α = .error err ∧ snowflakePasses d 32 x y β = .error err) ∨
      ∃ r r', snowflakePasses d 32 x y α = .ok r ∧ snowflakePasses d 32 x y β = .ok r' ∧
        r'.map (fun p => (p.x, p.y)) = r.map (fun p => (p.x, p.y)) := mapM_spots d x y _ _ _ _ _
  unfold spots passes
  by_cases hc : d.active = true ∧ d.num ≠ 0
  · simp only [if_pos hc]
    cases d.current.type with
    | vertical =>
      dsimp only
      rcases pass_anywhere d 0 x y (-2 * (90 + d.current.angle) - α) (-2 * (90 + d.current.angle) - β) 1 with
        ⟨err, h1, h2⟩ | ⟨p, q, h1, h2, h3⟩
      · rw [h1, h2]
      · rw [h1, h2]
        simp only [bind, Except.bind, pure, Except.pure, List.map_cons, List.map_nil, h3]
    | horizontal =>
      dsimp only
      rcases pass_anywhere d 0 x y (-2 * d.current.angle - α) (-2 * d.current.angle - β) 1 with
        ⟨err, h1, h2⟩ | ⟨p, q, h1, h2, h3⟩
      · rw [h1, h2]
      · rw [h1, h2]
        simp only [bind, Except.bind, pure, Except.pure, List.map_cons, List.map_nil, h3]
    | verthorz =>
      dsimp only
      rcases pass_anywhere d 0 x y (-2 * d.current.angle - α) (-2 * d.current.angle - β) 1 with
        ⟨err, h1, h2⟩ | ⟨p, q, h1, h2, h3⟩
      · rw [h1, h2]; rfl
      · rw [h1, h2]
        rcases pass_anywhere d 1 x y α β 2 with ⟨err, k1, k2⟩ | ⟨p', q', k1, k2, k3⟩
        · rw [k1, k2]; rfl
        · rw [k1, k2]
          rcases pass_anywhere d 2 x y (-2 * d.current.angle - α) (-2 * d.current.angle - β) 3 with
            ⟨err, l1, l2⟩ | ⟨p'', q'', l1, l2, l3⟩
          · rw [l1, l2]; rfl
          · rw [l1, l2]
            simp only [bind, Except.bind, pure, Except.pure, List.map_cons, List.map_nil, h3, k3, l3]
    | snowflake =>
      dsimp only
      rcases hsnow with ⟨err, h1, h2⟩ | ⟨p, q, h1, h2, h3⟩
      · rw [h1, h2]; rfl
      · rw [h1, h2]
        rcases hrot with ⟨err, k1, k2⟩ | ⟨p', q', k1, k2, k3⟩
        · rw [k1, k2]; rfl
        · rw [k1, k2]
          simp only [bind, Except.bind, pure, Except.pure, List.map_append, h3, k3]
    | rotational =>
      dsimp only
      rcases hrot with ⟨err, k1, k2⟩ | ⟨p', q', k1, k2, k3⟩
      · rw [k1, k2]
      · rw [k1, k2]
        simp only [bind, Except.bind, pure, Except.pure, k3]
    | other n => rfl
  · simp only [if_neg hc]

theorem draw_turn {env : Dab.Env K} (he : env.Valid) (d : Data K) (v : Spec.Now.Picture) {a : Args K} (α : K)
    (hr : 3 ≤ a.radius) (h : a.aspect ≤ 1) : Spec.Now.draw env d v { a with angle := α } = Spec.Now.draw env d v a := by
  have hl : ∀ β γ (l : List (Pass K)) (c : Canvas),
      (l.map fun p => ({ { a with angle := β } with x := p.x, y := p.y, angle := p.angle } : Args K)).foldl (Spec.Now.dabAt env) c =
      (l.map fun p => (p.x, p.y)).foldl (fun c q => Spec.Now.dabAt env c { a with x := q.1, y := q.2, angle := γ }) c := by
    intro β γ l
    induction l with
    | nil => intro c; rfl
    | cons p l ih =>
      intro c
      simp only [List.map_cons, List.foldl_cons]
      rw [ih]
      congr 1
      exact dab_has_no_angle_partial he c (a := { a with x := p.x, y := p.y, angle := γ }) hr (.inl h)
  have hc : ∀ c, (Spec.Now.copies d { a with angle := α }).foldl (Spec.Now.dabAt env) c =
      (Spec.Now.copies d a).foldl (Spec.Now.dabAt env) c := by
    intro c
    have hp := spots_turn d a.x a.y α a.angle
    unfold spots at hp
    unfold Spec.Now.copies
    dsimp only
    cases h1 : passes d 32 a.x a.y α with
    | error f =>
      cases h2 : passes d 32 a.x a.y a.angle with
      | error f' => rfl
      | ok r' => rw [h1, h2] at hp; cases hp
    | ok r =>
      cases h2 : passes d 32 a.x a.y a.angle with
      | error f' => rw [h1, h2] at hp; cases hp
      | ok r' =>
        rw [h1, h2] at hp
        have hp := Option.some.inj hp
        dsimp only
        have k1 := hl α a.angle r.1 c
        have k2 := hl a.angle a.angle r'.1 c
        rw [hp] at k1
        rw [← k2] at k1
        exact k1
  unfold Spec.Now.draw
  rw [visible_turn]
  simp only [List.foldl_cons]
  rw [dab_has_no_angle_partial he v.canvas hr (.inl h), hc]

theorem now_dull {e : Engine.Env K R σ} {env : Dab.Env K} (he : env.Valid) (d : Data K) (sch : Schedule) :
    Dull (e.on (Spec.Now.draw env d) (Spec.Now.getColor env sch)) :=
  fun v a α h1 h2 => draw_turn he d v α h2 h1

/-- The brush with another setting for the angle. -/
def Studio.turn (s : Studio K R) (m : Map.Mapping K) : Studio K R :=
  { s with brush := { s.brush with settings := turnSetting m s.brush.settings } }

theorem Spun.same {τ : Type} {e : Engine.Env K R τ} {b b' : Brush K R} (h : Spun e b b') : SameButAngle b b' := by
  obtain ⟨p, -, rfl⟩ := h
  exact ⟨p.m, p.w, p.a, rfl⟩

theorem turn_spun {τ : Type} {e : Engine.Env K R τ} {s : Studio K R} {m : Map.Mapping K}
    (hz : usesInput (turnSetting m s.brush.settings) iViewzoom = usesInput s.brush.settings iViewzoom)
    (h : HalfTurns (s.brush.settings sEllipticalDabAngle) m ∨
      (Dull e ∧ RoundBrush e s.brush.settings ∧ s.brush.st.ratio ≤ 1)) : Spun e s.brush (s.turn m).brush := by
  refine ⟨⟨m, s.brush.vals sEllipticalDabAngle, s.brush.st.angle⟩, ⟨hz, h.imp (fun h => ⟨h, rfl⟩) id⟩, ?_⟩
  have : spinVals (s.brush.vals sEllipticalDabAngle) s.brush.vals = s.brush.vals := by
    funext id
    unfold spinVals
    split_ifs with q
    · rw [q]
    · rfl
  unfold Studio.turn spinBrush
  dsimp only
  rw [this]

/-- **C99** A session with a brush of round dabs of radius at least 3, and the same with any other setting for the angle of
the dabs: the same picture, the same number of colours sampled, and the same brush but for the angle. -/
theorem round_dabs_have_no_angle_partial {e : Engine.Env K R σ} {b : Build} {env : Dab.Env K} (he : env.Valid)
    {trig : Trig K} {sch : Schedule} {fuel : Nat} {alloc : Int → Bool} {garbage : Int → Transform K} {dirty : Int}
    {canvas : Canvas} {s0 : FSurf K} (h0 : init b trig alloc garbage dirty canvas = .ok s0) {br : Brush K R} (hbr : Underway br)
    {before bls : List (Block K)} {s t t' : Studio K R} (hok : ∀ bl ∈ before, bl.Ok)
    (h1 : paint e b env trig sch fuel ⟨br, s0, 0⟩ before = .ok s) (hd : InForce s.surf.symm) (hq : Unswerving bls)
    (hr : RoundBrush e s.brush.settings) (hst : s.brush.st.ratio ≤ 1) {m : Map.Mapping K}
    (hz : usesInput (turnSetting m s.brush.settings) iViewzoom = usesInput s.brush.settings iViewzoom)
    (h2 : paint e b env trig sch fuel s bls = .ok t) (h3 : paint e b env trig sch fuel (s.turn m) bls = .ok t') :
    t'.surf.surf.canvas = t.surf.surf.canvas ∧ t'.samples = t.samples ∧ SameButAngle t.brush t'.brush := by
  have hf := (paint_fine before hok (Studio.fine_init h0 hbr 0).1 h1).surf
  have k2 := paint_now bls hf hd.agree hq h2
  have k3 := paint_now (s := s.turn m) bls hf hd.agree hq h3
  have hs : Spun (e.on (Spec.Now.draw env s.surf.symm) (Spec.Now.getColor env sch)) s.brush (s.turn m).brush :=
    turn_spun hz (.inr ⟨now_dull he _ _, ⟨hr.ratio, hr.radius, hr.random, hr.snap⟩, hst⟩)
  have k := strokes_spin fuel (bls.flatMap Block.motions) ⟨s.surf.surf.canvas, s.samples⟩ hs
  unfold Spec.Now.paint at k2 k3
  rw [k2] at k
  rw [show (⟨s.surf.surf.canvas, s.samples⟩ : Spec.Now.Picture) = ⟨(s.turn m).surf.surf.canvas, (s.turn m).samples⟩ from rfl] at k
  rw [k3] at k
  cases k with
  | ok k =>
    obtain ⟨q1, q2⟩ := k
    exact ⟨congrArg Spec.Now.Picture.canvas q1, congrArg Spec.Now.Picture.samples q1, Spun.same q2⟩

/-- **C99** Half turns of any brush: the same fault, or the same picture. -/
theorem half_turn_does_not_matter (e : Engine.Env K R σ) (b : Build) (env : Dab.Env K) (trig : Trig K) (sch : Schedule)
    (fuel : Nat) (bls : List (Block K)) (s : Studio K R) {m : Map.Mapping K}
    (hz : usesInput (turnSetting m s.brush.settings) iViewzoom = usesInput s.brush.settings iViewzoom)
    (h : HalfTurns (s.brush.settings sEllipticalDabAngle) m) :
    Alike (fun t t' => t'.surf = t.surf ∧ t'.samples = t.samples ∧ SameButAngle t.brush t'.brush)
      (paint e b env trig sch fuel s bls) (paint e b env trig sch fuel (s.turn m) bls) := by
  have hs : Spun (onTiles e b env sch) s.brush (s.turn m).brush := turn_spun hz (.inl h)
  have key : ∀ (bls : List (Block K)) {s s' : Studio K R}, s'.surf = s.surf → s'.samples = s.samples →
      Spun (onTiles e b env sch) s.brush s'.brush →
      Alike (fun t t' => t'.surf = t.surf ∧ t'.samples = t.samples ∧ SameButAngle t.brush t'.brush)
        (paint e b env trig sch fuel s bls) (paint e b env trig sch fuel s' bls) := by
    intro bls
    induction bls with
    | nil => intro s s' h1 h2 h3; exact .ok ⟨h1, h2, Spun.same h3⟩
    | cons bl bls ih =>
      intro s s' h1 h2 h3
      unfold paint
      have hb : Alike (fun r r' => r'.2.surf = r.2.surf ∧ r'.2.samples = r.2.samples ∧
          Spun (onTiles e b env sch) r.2.brush r'.2.brush) (block e b env trig sch fuel s bl) (block e b env trig sch fuel s' bl) := by
        unfold block
        rw [h1, h2]
        refine Alike.bind (Alike.same (P := Eq) _ fun _ _ => rfl) ?_
        rintro s1 _ rfl
        refine Alike.bind (strokes_spin fuel bl.motions _ h3) ?_
        rintro ⟨b1, w⟩ ⟨b1', w'⟩ ⟨q1, q2⟩
        dsimp only at q1 q2 ⊢
        subst q1
        refine Alike.bind (Alike.same (P := Eq) _ fun _ _ => rfl) ?_
        rintro s2 _ rfl
        refine Alike.bind (Alike.same (P := Eq) _ fun _ _ => rfl) ?_
        rintro t _ rfl
        exact .ok ⟨rfl, rfl, q2⟩
      refine Alike.bind hb ?_
      rintro r r' ⟨q1, q2, q3⟩
      exact ih q1 q2 q3
  exact key bls (s := s) (s' := s.turn m) rfl rfl hs

end
namespace Demo
open Verif.Blend

/-- Some sines and cosines: of 37 degrees and of -143 degrees, half a turn away, those of the triangle 3, 4, 5; of -180 degrees;
and all others as if for 0. -/
def turnEnv : Dab.Env ℚ :=
  { demoEnv with sin := fun a => if a = 37 then 3 / 5 else if a = -143 then -3 / 5 else 0
                 cos := fun a => if a = 37 then 4 / 5 else if a = -143 then -4 / 5 else if a = -180 then -1 else 1 }

theorem turnEnv_valid : turnEnv.Valid := by
  refine ⟨fun a => ?_, by norm_num [turnEnv, demoEnv]⟩
  simp only [turnEnv]
  split_ifs <;> norm_num

/-- The picture of one dab on an empty canvas. -/
def oneDab (a : Args ℚ) (ps : List (Int × Int)) : List (Option Px) :=
  ps.map fun q => (pixel (Spec.Now.dabAt turnEnv (uniform ⟨0, 0, 0, 0⟩) a) q.1 q.2).toOption

/-- An elliptical dab. -/
def longDab : Args ℚ := { demoArgs with aspect := 3, angle := 37 }

example : Spec.Now.dabAt turnEnv (uniform ⟨0, 0, 0, 0⟩) { longDab with angle := -143 } =
    Spec.Now.dabAt turnEnv (uniform ⟨0, 0, 0, 0⟩) longDab :=
  dab_has_no_angle_partial turnEnv_valid _ (by norm_num [longDab, demoArgs]) (.inr (by norm_num [turnEnv, longDab]))

/-- The angle of an elliptical dab does matter. -/
example : oneDab longDab [(66, 11)] ≠ oneDab { longDab with angle := 0 } [(66, 11)] := by decide +kernel

/-- A round dab of radius 2. -/
def dot : Args ℚ := { demoArgs with x := 29 / 10, y := 1 / 2, radius := 2, angle := 37 }

/-- **C99 fails** for dabs of a radius below 3, which are drawn by `calculate_rr_antialiased`: a pixel of a round dab depends on
the angle, and does not even stay the same when the dab is turned by half a turn. -/
theorem small_dab_has_an_angle :
    oneDab dot [(1, 0)] = [some ⟨11578, 0, 0, 11578⟩] ∧
    oneDab { dot with angle := -143 } [(1, 0)] = [some ⟨10760, 0, 0, 10760⟩] ∧
    oneDab { dot with angle := 0 } [(1, 0)] = [some ⟨7739, 0, 0, 7739⟩] := by
  refine ⟨?_, ?_, ?_⟩ <;> decide +kernel

/-- A brush with round dabs of radius 4. -/
def disc : Brush ℚ Nat := Engine.Demo.set red sRadiusLogarithmic 3

theorem disc_round : RoundBrush powEnv disc.settings := by
  refine ⟨fun i => ?_, fun i => ?_, fun i => ?_, fun i => ?_⟩
  · have h : Map.calculate (disc.settings sEllipticalDabRatio) i = (1 : ℚ) := rfl
    rw [h]
  · have h : Map.calculate (disc.settings sRadiusLogarithmic) i = (3 : ℚ) := rfl
    rw [h]
    norm_num [powEnv, Engine.Demo.env]
  · rfl
  · have h : Map.calculate (disc.settings sSnapToPixel) i = (0 : ℚ) := rfl
    rw [h]

/-- Two sessions with a round brush, one of them with an angle of 37 degrees. -/
example {s0 : FSurf ℚ} {t t' : Studio ℚ Nat}
    (h0 : init .normal demoTrig (fun _ => true) (fun _ => Symm.unit) 0 (uniform ⟨0, 0, 0, 0⟩) = .ok s0)
    (h2 : paint powEnv .normal turnEnv demoTrig sch 100 ⟨disc, s0, 0⟩ [strokeBlock events] = .ok t)
    (h3 : paint powEnv .normal turnEnv demoTrig sch 100
      ((⟨disc, s0, 0⟩ : Studio ℚ Nat).turn (Engine.Demo.constant 37)) [strokeBlock events] = .ok t') :
    t'.surf.surf.canvas = t.surf.surf.canvas := by
  refine (round_dabs_have_no_angle_partial (before := []) (s := ⟨disc, s0, 0⟩) turnEnv_valid h0 ?_ ?_ rfl ?_ ?_ disc_round ?_ ?_
    h2 h3).1
  · exact ⟨⟨le_refl _, zero_lt_one⟩, le_refl _⟩
  · simp
  · right
    exact Bool.eq_false_iff.mpr fun h =>
      (init_fit (env := turnEnv) h0 (fun X Y => ⟨_, uniform_pixel _ X Y, by decide⟩) .unsure .off).1.off h rfl
  · intro bl hb
    rw [List.mem_singleton] at hb
    rw [hb]
    exact ⟨rfl, fun l => List.Perm.refl l⟩
  · exact (zero_le_one : (0 : ℚ) ≤ 1)
  · show usesInput (turnSetting (Engine.Demo.constant 37) disc.settings) iViewzoom = usesInput disc.settings iViewzoom
    decide +kernel

/-- Some pixels after a session. -/
def turned (br : Brush ℚ Nat) (m : Map.Mapping ℚ) (ps : List (Int × Int)) : Option (List (Option Px)) :=
  match init .normal demoTrig (fun _ => true) (fun _ => Symm.unit) 0 (uniform ⟨0, 0, 0, 0⟩) with
  | .error _ => none
  | .ok s0 =>
    match paint powEnv .normal turnEnv demoTrig sch 100 ((⟨br, s0, 0⟩ : Studio ℚ Nat).turn m) [strokeBlock events] with
    | .error _ => none
    | .ok s => some (ps.map fun q => (pixel s.surf.surf.canvas q.1 q.2).toOption)

/-- What they look like. -/
example : turned disc (Engine.Demo.constant 37) [(60, 10), (63, 12)] =
    some [some ⟨28680, 0, 0, 28680⟩, some ⟨32101, 0, 0, 32101⟩] := by decide +kernel

example : turned disc (Engine.Demo.constant 0) [(60, 10), (63, 12)] =
    some [some ⟨28680, 0, 0, 28680⟩, some ⟨32101, 0, 0, 32101⟩] := by decide +kernel

/-- A brush with round dabs of radius 2. -/
def pencil : Brush ℚ Nat := Engine.Demo.set red sRadiusLogarithmic 1

/-- **C99 fails** for a session with a small brush: the same stroke with round dabs at two angles. -/
theorem small_brush_has_an_angle :
    turned pencil (Engine.Demo.constant 0) [(60, 10), (67, 11)] =
      some [some ⟨21224, 0, 0, 21224⟩, some ⟨12899, 0, 0, 12899⟩] ∧
    turned pencil (Engine.Demo.constant 37) [(60, 10), (67, 11)] =
      some [some ⟨26693, 0, 0, 26693⟩, some ⟨6684, 0, 0, 6684⟩] := by
  constructor <;> decide +kernel

/-- A brush with elliptical dabs turned by half a turn. -/
example (s : Studio ℚ Nat) (h : s.brush = Engine.Demo.set pencil sEllipticalDabRatio 3) :
    Alike (fun t t' => t'.surf = t.surf ∧ t'.samples = t.samples ∧ SameButAngle t.brush t'.brush)
      (paint powEnv .normal turnEnv demoTrig sch 100 s [strokeBlock events])
      (paint powEnv .normal turnEnv demoTrig sch 100 (s.turn (Engine.Demo.constant 270)) [strokeBlock events]) := by
  refine half_turn_does_not_matter _ _ _ _ _ _ _ s ?_ fun i => ⟨1, ?_⟩
  · rw [h]
    decide +kernel
  · rw [h]
    show (270 : ℚ) = 90 + 180 * ((1 : Int) : ℚ)
    norm_num

end Demo
end Verif.Painting
