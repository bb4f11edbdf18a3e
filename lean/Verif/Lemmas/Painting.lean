import Verif.Lemmas.EngineSim
import Verif.Props.C09_DirtyRects

/-!
# What a painting session does to the canvas

A block of motion events is a list of dabs and samplings of the surface; the dabs are those that the engine asks for.
-/

namespace Verif.Full
open Verif.Dab Verif.Symm Verif.Blend Spec.Rect

variable {K : Type} [Field K] [LinearOrder K] [IsStrictOrderedRing K] [FloorRing K]

/-- The same dab at another place. -/
def moved (a : Args K) (x y angle : K) : Args K := { a with x := x, y := y, angle := angle }

theorem drawInternal_draws {b : Build} {env : Env K} {trig : Trig K} {s s' : FSurf K} {a : Args K} {bbox : Int} {m : Bool}
    {c : Canvas} (h : drawInternal b env s a bbox = .ok (m, s')) (hs : Sound b env trig s c) :
    ∃ c', Sound b env trig s' c' ∧ s'.symm = s.symm ∧
      (c' = c ∨ ∃ op, prepare a = .ok (some op) ∧ c' = Spec.Surf.drawNow (kind env) c op) := by
  rcases drawInternal_cases h with ⟨rfl, rfl, _⟩ | ⟨rfl, op, surf, hp, hd, hb0, hb1, rfl⟩
  · exact ⟨c, hs, rfl, .inl rfl⟩
  · obtain ⟨st, hst⟩ := hs.stands
    obtain ⟨st', hst'⟩ := Surf.stands_dab hst op (tilesOf_nodup op) hd
    refine ⟨_, ⟨⟨st', hst'⟩, ?_, hs.cap, hs.big, hs.symm⟩, rfl, .inr ⟨op, hp, rfl⟩⟩
    intro i
    simp only [setBox]
    split_ifs
    · exact updateBox_proper _ (hs.proper _) op
    · exact hs.proper i

/-- What holds of a canvas holds after a dab and its copies, if drawing the dab anywhere keeps it; without symmetry it
is enough that drawing it where it is keeps it. -/
theorem drawDab_canvas {b : Build} {env : Env K} {trig : Trig K} {a : Args K} {s s' : FSurf K} {m : Bool} {c : Canvas}
    (h : drawDab b env s a = .ok (m, s')) (hs : Sound b env trig s c) {Q : Canvas → Prop}
    (hQ : ∀ x y θ, (s.symm.active = false → x = a.x ∧ y = a.y ∧ θ = a.angle) → ∀ op,
      prepare (moved a x y θ) = .ok (some op) → ∀ c, Q c → Q (Spec.Surf.drawNow (kind env) c op)) (hc : Q c) :
    ∃ c', Sound b env trig s' c' ∧ s'.symm = s.symm ∧ Q c' := by
  unfold drawDab at h
  obtain ⟨⟨m1, s1⟩, h1, h⟩ := except_bind_ok h
  obtain ⟨c1, hs1, e1, hc1⟩ := drawInternal_draws h1 hs
  have q1 : Q c1 := by
    rcases hc1 with rfl | ⟨op, hp, rfl⟩
    · exact hc
    · exact hQ a.x a.y a.angle (fun _ => ⟨rfl, rfl, rfl⟩) op hp c hc
  simp only at h
  cases m1 with
  | false =>
    simp only [Bool.false_eq_true, if_false, pure, Except.pure] at h
    cases h
    exact ⟨c1, ⟨hs1.stands, hs1.proper, hs1.cap, hs1.big, hs1.symm⟩, e1, q1⟩
  | true =>
    simp only [if_true] at h
    obtain ⟨⟨ps, used⟩, h2, h⟩ := except_bind_ok h
    obtain ⟨s2, h3, h⟩ := except_bind_ok h
    simp only [pure, Except.pure] at h
    cases h
    have hps : s.symm.active = false → ps = [] := by
      intro hf
      unfold passes at h2
      rw [if_neg (by rw [e1, hf]; simp)] at h2
      cases h2
      rfl
    have key : ∀ (ps : List (Pass K)) (s1 : FSurf K) (c1 : Canvas), (s.symm.active = false → ps = []) →
        ps.foldlM (drawPass b env a) s1 = .ok s2 → Sound b env trig s1 c1 → s1.symm = s.symm → Q c1 →
        ∃ c', Sound b env trig s2 c' ∧ s2.symm = s.symm ∧ Q c' := by
      intro ps
      induction ps with
      | nil =>
        intro s1 c1 _ h hs e hq
        simp only [List.foldlM_nil, pure, Except.pure] at h
        cases h
        exact ⟨c1, hs, e, hq⟩
      | cons p ps ih =>
        intro s1 c1 hf h hs e hq
        rw [List.foldlM_cons] at h
        obtain ⟨s3, h4, h⟩ := except_bind_ok h
        unfold drawPass at h4
        obtain ⟨⟨m, s3'⟩, h5, h4⟩ := except_bind_ok h4
        cases h4
        obtain ⟨c3, hs3, e3, hc3⟩ := drawInternal_draws h5 hs
        refine ih s3' c3 (fun hh => by cases hf hh) h hs3 (e3.trans e) ?_
        rcases hc3 with rfl | ⟨op, hp, rfl⟩
        · exact hq
        · exact hQ p.x p.y p.angle (fun hh => by cases hf hh) op hp c1 hq
    obtain ⟨c', hs', e', hq'⟩ := key ps s1 c1 hps h3 hs1 e1 q1
    exact ⟨c', ⟨hs'.stands, hs'.proper, hs'.cap, hs'.big, hs'.symm⟩, e', hq'⟩

/-- The same for a list of dabs and samplings. -/
theorem run_canvas {b : Build} {env : Env K} {trig : Trig K} (es : List (Event K)) (s s' : FSurf K) (c : Canvas)
    (hd : ∀ e ∈ es, e.Drawing) (h : run b env trig s es = .ok s') (hs : Sound b env trig s c) {Q : Canvas → Prop}
    (hQ : ∀ a ∈ dabs es, ∀ x y θ, (s.symm.active = false → x = a.x ∧ y = a.y ∧ θ = a.angle) → ∀ op,
      prepare (moved a x y θ) = .ok (some op) → ∀ c, Q c → Q (Spec.Surf.drawNow (kind env) c op)) (hc : Q c) :
    ∃ c', Sound b env trig s' c' ∧ s'.symm = s.symm ∧ Q c' := by
  induction es generalizing s c with
  | nil => cases h; exact ⟨c, hs, rfl, hc⟩
  | cons e es ih =>
    obtain ⟨rs, s1, h1, h2⟩ := run_cons h
    have hd' : ∀ e ∈ es, e.Drawing := fun e he => hd e (by simp [he])
    cases e with
    | dab a =>
      obtain ⟨⟨m, s1'⟩, h3, h4⟩ := except_bind_ok (show (drawDab b env s a >>= fun x => .ok ([], x.2)) = _ from h1)
      cases h4
      obtain ⟨c1, hs1, e1, q1⟩ := drawDab_canvas h3 hs (hQ a (by simp [dabs])) hc
      obtain ⟨c', hs', e', q'⟩ := ih s1' c1 hd' h2 hs1 (by
        rw [e1]
        exact fun a ha => hQ a (by simp [dabs, ha])) q1
      exact ⟨c', hs', e'.trans e1, q'⟩
    | sample ts =>
      unfold step at h1
      obtain ⟨⟨vs, s1'⟩, h3, h4⟩ := except_bind_ok h1
      cases h4
      have hs1 := sample_sound h3 hs
      obtain ⟨c', hs', e', q'⟩ := ih { s with surf := s1' } c hd' h2 hs1 hQ hc
      exact ⟨c', hs', e', q'⟩
    | setSymmetry => exact absurd (hd _ (List.mem_cons_self)) (by simp [Event.Drawing])
    | beginAtomic => exact absurd (hd _ (List.mem_cons_self)) (by simp [Event.Drawing])
    | endAtomic => exact absurd (hd _ (List.mem_cons_self)) (by simp [Event.Drawing])

omit [IsStrictOrderedRing K] in
theorem run_snoc {b : Build} {env : Env K} {trig : Trig K} {s s1 s2 : FSurf K} {es : List (Event K)} {e : Event K}
    {rs : List Rect} (h : run b env trig s es = .ok s1) (h1 : step b env trig s1 e = .ok (rs, s2)) :
    run b env trig s (es ++ [e]) = .ok s2 := by
  unfold run at *
  rw [List.foldlM_append, h]
  simp only [bind, Except.bind, List.foldlM_cons, List.foldlM_nil, pure, Except.pure, h1]

omit [IsStrictOrderedRing K] [Field K] [LinearOrder K] [FloorRing K] in
theorem dabs_append (es fs : List (Event K)) : dabs (es ++ fs) = dabs es ++ dabs fs := by
  induction es with
  | nil => rfl
  | cons e es ih => cases e <;> simp [dabs, ih]

end Verif.Full

namespace Verif.Engine

/-- Sampling asks the surface at most once. -/
theorem smudgeStage_surf {K R σ : Type} [Field K] [LinearOrder K] [FloorRing K] {e : Env K R σ} {b : Brush K R} {surf : σ}
    {x y r : K} {sm : Bool × Brush K R × σ} (h : smudgeStage e b surf x y r = .ok sm) :
    sm.2.2 = surf ∨ ∃ px py r' p, sm.2.2 = (e.getColor surf px py r' p).2 := by
  unfold smudgeStage at h
  split_ifs at h
  · dsimp only at h
    obtain ⟨v, -, h⟩ := bind_ok h
    obtain ⟨px, -, h⟩ := bind_ok h
    obtain ⟨py, -, h⟩ := bind_ok h
    obtain ⟨b2, -, h⟩ := bind_ok h
    rw [← Except.ok.inj h]
    show (updateSmudge e (fetchSmudge b).2 surf v px py r).2.2.1 = surf ∨ _
    unfold updateSmudge
    dsimp only
    split_ifs
    all_goals first
      | exact .inl rfl
      | exact .inr ⟨px, py, _, _, rfl⟩
  · rw [← Except.ok.inj h]; exact .inl rfl

end Verif.Engine

namespace Verif.Painting
open Verif.Full Verif.Dab Verif.Engine Verif.Blend

section
variable {K R σ : Type} [Field K] [LinearOrder K] [IsStrictOrderedRing K] [FloorRing K]

/-- The surface `w`, with the dabs `l` recorded, is the result of dabs and samplings on `s1`. -/
def Came (b : Build) (env : Dab.Env K) (trig : Symm.Trig K) (s1 : FSurf K) (w : World K) (l : List (Args K)) : Prop :=
  ∀ s2, w.surf = .ok s2 → ∃ es, (∀ e ∈ es, e.Drawing) ∧ run b env trig s1 es = .ok s2 ∧ dabs es = l

omit [IsStrictOrderedRing K] in
theorem came_draw {b : Build} {env : Dab.Env K} {trig : Symm.Trig K} {s1 : FSurf K} {w : World K} {l : List (Args K)}
    (h : Came b env trig s1 w l) (a : Args K) : Came b env trig s1 (draw b env w a).2 (l ++ [a]) := by
  intro s2 hw
  unfold draw at hw
  cases hs : w.surf with
  | error f => rw [hs] at hw; simp only [hs, reduceCtorEq] at hw
  | ok s =>
    rw [hs] at hw
    dsimp only at hw
    cases hd : Full.drawDab b env s a with
    | error f => rw [hd] at hw; cases hw
    | ok r =>
      rw [hd] at hw
      cases hw
      obtain ⟨es, h1, h2, h3⟩ := h s hs
      refine ⟨es ++ [.dab a], ?_, run_snoc (rs := []) h2 ?_, ?_⟩
      · intro e he
        rcases List.mem_append.mp he with q | q
        · exact h1 e q
        · rw [List.mem_singleton.mp q]; trivial
      · show (Full.drawDab b env s a >>= fun x => Except.ok ([], x.2)) = _
        rw [hd]
        rfl
      · rw [dabs_append, h3]; rfl

omit [IsStrictOrderedRing K] in
theorem getColor_ok {env : Dab.Env K} {s s' : Surf (Op K) (Except Fault Tile)} {x y radius paint : K}
    {order : List TileIndex → List TileIndex} {coin : TileIndex → Nat → Bool} {res : Sample.Result K}
    (h : Sample.getColor env s x y radius paint order coin = .ok (res, s')) :
    ∃ ts vs, Surf.sample (kind env) s ts = .ok (vs, s') := by
  unfold Sample.getColor at h
  dsimp only at h
  split_ifs at h
  obtain ⟨n, -, h⟩ := except_bind_ok h
  obtain ⟨⟨vs, s1⟩, h1, h⟩ := except_bind_ok h
  obtain ⟨acc, -, h⟩ := except_bind_ok h
  obtain ⟨res', -, h⟩ := except_bind_ok h
  cases h
  exact ⟨_, vs, h1⟩

omit [IsStrictOrderedRing K] in
theorem came_getColor {b : Build} {env : Dab.Env K} {trig : Symm.Trig K} {sch : Schedule} {s1 : FSurf K} {w : World K}
    {l : List (Args K)} (h : Came b env trig s1 w l) (x y : Int) (r p : K) :
    Came b env trig s1 (getColor env sch w x y r p).2 l := by
  intro s2 hw
  unfold getColor at hw
  cases hs : w.surf with
  | error f => rw [hs] at hw; simp only [hs, reduceCtorEq] at hw
  | ok s =>
    rw [hs] at hw
    dsimp only at hw
    cases hd : Sample.getColor env s.surf (x : K) (y : K) r p (sch.order w.samples) (sch.coin w.samples) with
    | error f => rw [hd] at hw; cases hw
    | ok q =>
      rw [hd] at hw
      cases hw
      obtain ⟨es, h1, h2, h3⟩ := h s hs
      obtain ⟨ts, vs, h4⟩ := getColor_ok hd
      refine ⟨es ++ [.sample ts], ?_, run_snoc (rs := []) h2 ?_, ?_⟩
      · intro e he
        rcases List.mem_append.mp he with q | q
        · exact h1 e q
        · rw [List.mem_singleton.mp q]; trivial
      · show (Surf.sample (kind env) s.surf ts >>= fun x => Except.ok ([], { s with surf := x.2 })) = _
        rw [h4]
        rfl
      · rw [dabs_append, h3]; simp [dabs]

theorem came_invariant (e : Engine.Env K R σ) (b : Build) (env : Dab.Env K) (trig : Symm.Trig K) (sch : Schedule)
    (s1 : FSurf K) :
    Invariant (recordDabs (onTiles e b env sch)) (fun _ => True) (fun _ _ => True)
      (fun _ s => Came b env trig s1 s.1 s.2) (fun _ s => Came b env trig s1 s.1 s.2) :=
  Invariant.ofSettings (I := fun (_ : Load.Brush K) (s : World K × List (Args K)) => Came b env trig s1 s.1 s.2) (fun _ _ _ _ h _ => h) (fun _ _ h => h) (by
    intro br surf lin p h hd
    have key : ∀ {b' x y r sm}, smudgeStage (recordDabs (onTiles e b env sch)) b' surf x y r = .ok sm →
        Came b env trig s1 sm.2.2.1 sm.2.2.2 := by
      intro b' x y r sm hsm
      rcases smudgeStage_surf hsm with q | ⟨px, py, r', p', q⟩
      · rw [q]; exact h
      · rw [q]; exact came_getColor h px py r' p'
    obtain ⟨o, pos, sm, -, -, h3, -, ⟨-, h5⟩ | ⟨-, col, -, -, h7⟩⟩ := drawDab_cases hd
    · have k := key h3
      rw [h5]; exact k
    · rw [h7]; exact came_draw (key h3) _)

/-- What is assumed of a block: `end_atomic` processes each tile once, and there are at most 2^20 symmetry lines. -/
structure Block.Ok (bl : Block K) : Prop where
  order : ∀ l, (bl.order l).Perm l
  lines : ∀ active cx cy angle type lines, bl.symmetry = some (active, cx, cy, angle, type, lines) → lines ≤ 1048576

/-- Between blocks: the brush is fine, no dab is waiting. -/
structure Studio.Fine (b : Build) (env : Dab.Env K) (trig : Symm.Trig K) (s : Studio K R) : Prop where
  brush : Underway s.brush
  surf : Sound b env trig s.surf s.surf.surf.canvas

/-- A new surface and a brush that is ready. -/
theorem Studio.fine_init {b : Build} {env : Dab.Env K} {trig : Symm.Trig K} {alloc : Int → Bool}
    {garbage : Int → Symm.Transform K} {dirty : Int} {canvas : Canvas} {s0 : FSurf K}
    (h : init b trig alloc garbage dirty canvas = .ok s0) {br : Brush K R} (hb : Underway br) (n : Nat) :
    Studio.Fine b env trig ⟨br, s0, n⟩ ∧ s0.surf.canvas = canvas := by
  obtain ⟨s, h1, h2, h3⟩ := init_sound b env trig alloc garbage dirty canvas
  rw [h] at h1
  cases h1
  exact ⟨⟨hb, h3 ▸ h2⟩, h3⟩

theorem setUp_sound {b : Build} {env : Dab.Env K} {trig : Symm.Trig K} {s : FSurf K} {c : Canvas} {bl : Block K}
    (hl : bl.Ok) (h : Sound b env trig s c) : Sound b env trig (bl.setUp s) c := by
  unfold Block.setUp
  have := hl.lines
  cases hs : bl.symmetry with
  | none => exact h
  | some p =>
    obtain ⟨active, cx, cy, angle, type, lines⟩ := p
    exact ⟨h.stands, h.proper, h.cap, h.big, Symm.setPending_inv trig h.symm active cx cy angle type (this _ _ _ _ _ _ hs)⟩

/-- A block taken apart. -/
theorem block_eq {e : Engine.Env K R σ} {b : Build} {env : Dab.Env K} {trig : Symm.Trig K} {sch : Schedule} {fuel : Nat}
    {s s' : Studio K R} {bl : Block K} {rs : List Rect} (hs : s.Fine b env trig)
    (h : block e b env trig sch fuel s bl = .ok (rs, s')) :
    ∃ s1 s2 es, beginAtomic trig bl.alloc bl.balloc (bl.setUp s.surf) = .ok s1 ∧ (∀ e ∈ es, e.Drawing) ∧
      run b env trig s1 es = .ok s2 ∧ endAtomic env bl.order bl.roi s2 = .ok (rs, s'.surf) ∧
      strokes (recordDabs (onTiles e b env sch)) fuel s.brush (⟨.ok s1, s.samples⟩, []) bl.motions =
        .ok (s'.brush, ⟨.ok s2, s'.samples⟩, dabs es) ∧ Underway s'.brush := by
  unfold block at h
  obtain ⟨s1, h1, h⟩ := except_bind_ok h
  obtain ⟨⟨br, w⟩, h2, h⟩ := except_bind_ok h
  obtain ⟨s2, h3, h⟩ := except_bind_ok h
  obtain ⟨⟨rs', s3⟩, h4, h⟩ := except_bind_ok h
  cases h
  obtain ⟨l, hl⟩ := strokes_recorded _ fuel bl.motions s.brush _ [] h2
  have k := session_keeps (came_invariant e b env trig sch s1) (fun _ => True) (fun _ _ _ _ => trivial)
    (fun _ _ _ _ => trivial) (fun _ _ => trivial) bl.motions (fun _ _ => trivial) hs.brush
    (fun s2 h => ⟨[], by simp, by cases h; rfl, rfl⟩) hl
  obtain ⟨es, e1, e2, e3⟩ := k.1 s2 h3
  refine ⟨s1, s2, es, h1, e1, e2, h4, ?_, k.2⟩
  rw [hl, e3]
  obtain ⟨ws, wn⟩ := w
  simp only at h3
  subst h3
  rfl

/-- What a block does to the canvas. -/
theorem block_canvas {e : Engine.Env K R σ} {b : Build} {env : Dab.Env K} {trig : Symm.Trig K} {sch : Schedule} {fuel : Nat}
    {s s' : Studio K R} {bl : Block K} {rs : List Rect} (hs : s.Fine b env trig) (hb : bl.Ok)
    (h : block e b env trig sch fuel s bl = .ok (rs, s')) {Q : Canvas → Prop}
    (hQ : ∀ w r, strokes (recordDabs (onTiles e b env sch)) fuel s.brush (w, []) bl.motions = .ok r →
      ∀ a ∈ r.2.2, ∀ x y θ, ((bl.setUp s.surf).symm.active = false → x = a.x ∧ y = a.y ∧ θ = a.angle) → ∀ op,
      prepare (moved a x y θ) = .ok (some op) → ∀ c, Q c → Q (Spec.Surf.drawNow (kind env) c op))
    (hc : Q s.surf.surf.canvas) :
    s'.Fine b env trig ∧ Q s'.surf.surf.canvas ∧ s'.surf.symm.active = (bl.setUp s.surf).symm.active := by
  obtain ⟨s1, s2, es, h1, h2, h3, h4, h5, h6⟩ := block_eq hs h
  obtain ⟨hs1, -, -, hu⟩ := beginAtomic_sound h1 (setUp_sound hb hs.surf)
  obtain ⟨d', hu', -, -, ha⟩ := Symm.update_inv trig bl.alloc (setUp_sound hb hs.surf).symm
  rw [hu] at hu'
  have ha' : s1.symm.active = (bl.setUp s.surf).symm.active := by cases hu'; exact ha
  obtain ⟨c2, hs2, e2, q2⟩ := run_canvas es s1 s2 _ h2 h3 hs1 (Q := Q) (by
    rw [ha']
    intro a hin
    exact hQ _ _ h5 a hin) hc
  obtain ⟨hs3, e3, -⟩ := endAtomic_sound hb.order h4 hs2
  refine ⟨⟨h6, ?_⟩, ?_, ?_⟩
  · rw [e3]; exact hs3
  · rw [e3]; exact q2
  · rw [← ha', ← e2]
    unfold endAtomic at h4
    obtain ⟨sf, -, h4⟩ := except_bind_ok h4
    cases hr : bl.roi with
    | none =>
      rw [hr] at h4
      have k := congrArg (fun p => p.2.symm.active) (Except.ok.inj h4)
      exact k.symm
    | some p =>
      obtain ⟨n, old⟩ := p
      rw [hr] at h4
      obtain ⟨rs, -, h4⟩ := except_bind_ok h4
      have k := congrArg (fun p => p.2.symm.active) (Except.ok.inj h4)
      exact k.symm

end
end Verif.Painting
