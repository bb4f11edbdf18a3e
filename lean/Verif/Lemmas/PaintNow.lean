import Verif.Lemmas.EngineFollow
import Verif.Lemmas.PaintingSlide
import Verif.Spec.PaintNow

/-!
The tiled surface does what a surface does on which everything appears at once.
-/

namespace Verif.Painting
open Verif.Full Verif.Dab Verif.Engine Verif.Blend

section
variable {K R σ : Type} [Field K] [LinearOrder K] [IsStrictOrderedRing K] [FloorRing K]

/-- Where a copy goes. -/
def place (p : Symm.Pass K) : K × K × K := (p.x, p.y, p.angle)

omit [LinearOrder K] [IsStrictOrderedRing K] [FloorRing K] in
theorem pass_place {d : Symm.Data K} {i : Int} {x y t : K} {n : Int} {p : Symm.Pass K} (m : Int)
    (h : Symm.pass d i x y t n = .ok p) : ∃ p', Symm.pass d i x y t m = .ok p' ∧ place p' = place p := by
  unfold Symm.pass at h ⊢
  obtain ⟨l, h1, h2⟩ := except_bind_ok h
  rw [h1]
  cases h2
  exact ⟨_, rfl, rfl⟩

omit [Field K] [LinearOrder K] [IsStrictOrderedRing K] [FloorRing K] in
theorem mapM_place {f g : Int → Except Fault (Symm.Pass K)} : ∀ (l : List Int) {ps : List (Symm.Pass K)},
    (∀ k p, f k = .ok p → ∃ p', g k = .ok p' ∧ place p' = place p) → l.mapM f = .ok ps →
    ∃ ps', l.mapM g = .ok ps' ∧ ps'.map place = ps.map place
  | [], ps, _, h => by
    simp only [List.mapM_nil, pure, Except.pure] at h ⊢
    cases h
    exact ⟨[], rfl, rfl⟩
  | k :: l, ps, hf, h => by
    rw [List.mapM_cons] at h ⊢
    obtain ⟨p, h1, h⟩ := except_bind_ok h
    obtain ⟨qs, h2, h⟩ := except_bind_ok h
    cases h
    obtain ⟨p', e1, e2⟩ := hf k p h1
    obtain ⟨qs', f1, f2⟩ := mapM_place l hf h2
    rw [e1, f1]
    exact ⟨p' :: qs', rfl, by simp only [List.map_cons, e2, f2]⟩

omit [IsStrictOrderedRing K] in
theorem snow_place {d : Symm.Data K} {n m : Int} {x y t : K} {ps : List (Symm.Pass K)}
    (h : Symm.snowflakePasses d n x y t = .ok ps) :
    ∃ ps', Symm.snowflakePasses d m x y t = .ok ps' ∧ ps'.map place = ps.map place :=
  mapM_place _ (fun _ _ hk => pass_place _ hk) h

omit [IsStrictOrderedRing K] in
theorem rotational_place {d : Symm.Data K} {n m : Int} {x y t : K} {ps : List (Symm.Pass K)}
    (h : Symm.rotationalPasses d n x y t = .ok ps) :
    ∃ ps', Symm.rotationalPasses d m x y t = .ok ps' ∧ ps'.map place = ps.map place :=
  mapM_place _ (fun _ _ hk => pass_place _ hk) h

omit [IsStrictOrderedRing K] in
/-- Where the copies go does not depend on how many boxes there are. -/
theorem passes_place {d : Symm.Data K} {n m : Int} {x y t : K} {r : List (Symm.Pass K) × Int}
    (h : Symm.passes d n x y t = .ok r) :
    ∃ r', Symm.passes d m x y t = .ok r' ∧ r'.1.map place = r.1.map place := by
  unfold Symm.passes at h ⊢
  by_cases hc : d.active = true ∧ d.num ≠ 0
  · rw [if_pos hc] at h ⊢
    dsimp only at h ⊢
    cases ht : d.current.type with
    | vertical =>
      rw [ht] at h
      dsimp only at h ⊢
      obtain ⟨p, h1, h2⟩ := except_bind_ok h
      cases h2
      rw [h1]
      exact ⟨_, rfl, rfl⟩
    | horizontal =>
      rw [ht] at h
      dsimp only at h ⊢
      obtain ⟨p, h1, h2⟩ := except_bind_ok h
      cases h2
      rw [h1]
      exact ⟨_, rfl, rfl⟩
    | verthorz =>
      rw [ht] at h
      dsimp only at h ⊢
      exact ⟨r, h, rfl⟩
    | snowflake =>
      rw [ht] at h
      dsimp only at h ⊢
      obtain ⟨a, h1, h⟩ := except_bind_ok h
      obtain ⟨b, h2, h⟩ := except_bind_ok h
      cases h
      obtain ⟨a', e1, e2⟩ := snow_place (m := m) h1
      obtain ⟨b', f1, f2⟩ := rotational_place (m := m) h2
      rw [e1, f1]
      exact ⟨_, rfl, by simp only [List.map_append, e2, f2]⟩
    | rotational =>
      rw [ht] at h
      dsimp only at h ⊢
      obtain ⟨b, h2, h⟩ := except_bind_ok h
      cases h
      obtain ⟨b', f1, f2⟩ := rotational_place (m := m) h2
      rw [f1]
      exact ⟨_, rfl, f2⟩
    | other z =>
      rw [ht] at h
      dsimp only at h ⊢
      cases h
      exact ⟨_, rfl, rfl⟩
  · rw [if_neg hc] at h ⊢
    cases h
    exact ⟨_, rfl, rfl⟩

/-- One dab, without its copies. -/
theorem drawInternal_now {b : Build} {env : Dab.Env K} {trig : Symm.Trig K} {s s' : FSurf K} {a : Args K} {bbox : Int}
    {m : Bool} {c : Canvas} (h : drawInternal b env s a bbox = .ok (m, s')) (hs : Sound b env trig s c) :
    Sound b env trig s' (Spec.Now.dabAt env c a) ∧ s'.symm = s.symm ∧ s'.numB = s.numB ∧ m = visible a := by
  rcases drawInternal_cases h with ⟨rfl, rfl, hp⟩ | ⟨rfl, op, surf, hp, hd, hb0, hb1, rfl⟩
  · unfold Spec.Now.dabAt visible
    rw [hp]
    exact ⟨hs, rfl, rfl, rfl⟩
  · obtain ⟨st, hst⟩ := hs.stands
    obtain ⟨st', hst'⟩ := Surf.stands_dab hst op (tilesOf_nodup op) hd
    unfold Spec.Now.dabAt visible
    rw [hp]
    refine ⟨⟨⟨st', hst'⟩, ?_, hs.cap, hs.big, hs.symm⟩, rfl, rfl, rfl⟩
    intro i
    simp only [setBox]
    split_ifs
    · exact updateBox_proper _ (hs.proper _) op
    · exact hs.proper i

/-- A dab with its copies. -/
theorem drawDab_now {b : Build} {env : Dab.Env K} {trig : Symm.Trig K} {s s' : FSurf K} {a : Args K} {m : Bool} {c : Canvas}
    {n : Nat} (h : Full.drawDab b env s a = .ok (m, s')) (hs : Sound b env trig s c) :
    (Spec.Now.draw env s.symm ⟨c, n⟩ a).1 = m ∧ s'.symm = s.symm ∧
      Sound b env trig s' (Spec.Now.draw env s.symm ⟨c, n⟩ a).2.canvas := by
  unfold Full.drawDab at h
  obtain ⟨⟨m1, s1⟩, h1, h'⟩ := except_bind_ok h
  clear h
  rename' h' => h
  obtain ⟨k1, k2, k3, k4⟩ := drawInternal_now h1 hs
  cases m1 with
  | false =>
    simp only [Bool.false_eq_true, if_false, pure, Except.pure] at h
    cases h
    unfold Spec.Now.draw
    rw [← k4]
    rcases drawInternal_cases h1 with ⟨-, rfl, hp⟩ | ⟨hf, -⟩
    · exact ⟨rfl, rfl, ⟨hs.stands, hs.proper, hs.cap, hs.big, hs.symm⟩⟩
    · cases hf
  | true =>
    simp only [if_true] at h
    obtain ⟨⟨ps, used⟩, h2, h⟩ := except_bind_ok h
    obtain ⟨s2, h3, h⟩ := except_bind_ok h
    simp only [pure, Except.pure] at h
    cases h
    unfold Spec.Now.draw
    rw [← k4]
    simp only [if_true]
    rw [k2] at h2
    obtain ⟨r', p1, p2⟩ := passes_place (m := 32) h2
    have hcop : Spec.Now.copies s.symm a = ps.map fun p => moved a p.x p.y p.angle := by
      unfold Spec.Now.copies
      rw [p1]
      have : ∀ l : List (Symm.Pass K), (l.map fun p => ({ a with x := p.x, y := p.y, angle := p.angle } : Args K)) =
          (l.map place).map fun q => moved a q.1 q.2.1 q.2.2 := by
        intro l
        rw [List.map_map]
        rfl
      show (r'.1.map fun p => ({ a with x := p.x, y := p.y, angle := p.angle } : Args K)) = _
      rw [this, p2, List.map_map]
      rfl
    rw [hcop, List.foldl_cons]
    have key : ∀ (ps : List (Symm.Pass K)) (s1 : FSurf K) (c1 : Canvas),
        ps.foldlM (drawPass b env a) s1 = .ok s2 → Sound b env trig s1 c1 →
        Sound b env trig s2 ((ps.map fun p => moved a p.x p.y p.angle).foldl (Spec.Now.dabAt env) c1) ∧
          s2.symm = s1.symm := by
      intro ps
      induction ps with
      | nil =>
        intro s1 c1 h hs
        simp only [List.foldlM_nil, pure, Except.pure] at h
        cases h
        exact ⟨hs, rfl⟩
      | cons p ps ih =>
        intro s1 c1 h hs
        rw [List.foldlM_cons] at h
        obtain ⟨s3, h4, h⟩ := except_bind_ok h
        unfold drawPass at h4
        obtain ⟨⟨m, s3'⟩, h5, h4⟩ := except_bind_ok h4
        cases h4
        obtain ⟨q1, q2, -, -⟩ := drawInternal_now h5 hs
        obtain ⟨q3, q4⟩ := ih s3' _ h q1
        exact ⟨q3, q4.trans q2⟩
    obtain ⟨q1, q2⟩ := key ps s1 _ h3 k1
    exact ⟨trivial, q2.trans k2, ⟨q1.stands, q1.proper, q1.cap, q1.big, q1.symm⟩⟩

/-- A colour that is picked. -/
theorem getColor_now {b : Build} {env : Dab.Env K} {trig : Symm.Trig K} {s : FSurf K} {c : Canvas} {x y radius paint : K}
    {order : List TileIndex → List TileIndex} {coin : TileIndex → Nat → Bool}
    {r : Sample.Result K × Surf (Op K) (Except Fault Tile)} (hs : Sound b env trig s c)
    (h : Sample.getColor env s.surf x y radius paint order coin = .ok r) :
    Spec.Now.look env c x y radius paint order coin = .ok r.1 ∧ Sound b env trig { s with surf := r.2 } c := by
  unfold Sample.getColor at h
  unfold Spec.Now.look
  dsimp only at h ⊢
  by_cases hc : Sample.convertible x y (Sample.shape x y radius env.rad1).radius = false
  · rw [if_pos hc] at h
    cases h
  · rw [if_neg hc] at h ⊢
    obtain ⟨n, h1, h⟩ := except_bind_ok h
    obtain ⟨⟨vs, s'⟩, h2, h⟩ := except_bind_ok h
    obtain ⟨acc, h3, h⟩ := except_bind_ok h
    obtain ⟨res, h4, h⟩ := except_bind_ok h
    cases h
    obtain ⟨st, hst⟩ := hs.stands
    obtain ⟨s1, st1, g1, g2, -⟩ := Surf.stands_sample (order (Sample.tilesFor x y (Sample.shape x y radius env.rad1).radius))
      s.surf st c hst
    rw [g1] at h2
    cases h2
    simp only [h1, bind, Except.bind, h3]
    exact ⟨h4, ⟨⟨st1, g2⟩, hs.proper, hs.cap, hs.big, hs.symm⟩⟩

/-- The tiled surface shows the picture. -/
def Pictures (b : Build) (env : Dab.Env K) (trig : Symm.Trig K) (d : Symm.Data K) (w : World K) (v : Spec.Now.Picture) : Prop :=
  ∃ s, w.surf = .ok s ∧ s.symm = d ∧ Sound b env trig s v.canvas ∧ w.samples = v.samples

/-- Nothing went wrong. -/
def Stays (w : World K) : Prop := ∃ s, w.surf = .ok s

theorem tiles_follow (e : Engine.Env K R σ) (b : Build) (env : Dab.Env K) (trig : Symm.Trig K) (d : Symm.Data K)
    (sch : Schedule) : Follows (onTiles e b env sch) (Spec.Now.draw env d) (Spec.Now.getColor env sch)
      (Pictures b env trig d) (Stays (K := K)) where
  draw w v a hP hL := by
    obtain ⟨s, h1, rfl, h3, h4⟩ := hP
    obtain ⟨s', hs'⟩ := hL
    obtain ⟨s0, m, k1, k2⟩ := draw_ok hs'
    rw [h1] at k1
    cases k1
    obtain ⟨q1, q2, q3⟩ := drawDab_now (n := v.samples) k2 h3
    have e1 : (onTiles e b env sch).draw w a = (m, { w with surf := .ok s' }) := by
      show draw b env w a = _
      unfold draw
      rw [h1]
      dsimp only
      rw [k2]
    rw [e1]
    refine ⟨q1, s', rfl, q2, q3, ?_⟩
    show w.samples = _
    rw [h4]
    unfold Spec.Now.draw
    split_ifs <;> rfl
  getColor w v x y r p hP hL := by
    obtain ⟨s, h1, rfl, h3, h4⟩ := hP
    obtain ⟨s', hs'⟩ := hL
    show (Spec.Now.getColor env sch v x y r p).1 = (getColor env sch w x y r p).1 ∧ _
    have hs'' : (getColor env sch w x y r p).2.surf = .ok s' := hs'
    show _ ∧ Pictures b env trig s.symm (getColor env sch w x y r p).2 _
    unfold getColor at hs'' ⊢
    rw [h1] at hs'' ⊢
    dsimp only at hs'' ⊢
    unfold Spec.Now.getColor
    rw [← h4]
    cases hg : Sample.getColor env s.surf (x : K) (y : K) r p (sch.order w.samples) (sch.coin w.samples) with
    | error f =>
      rw [hg] at hs''
      cases hs''
    | ok q =>
      obtain ⟨q1, q2⟩ := getColor_now h3 hg
      rw [q1]
      exact ⟨rfl, _, rfl, rfl, q2, rfl⟩
  drawn w a hL := by
    obtain ⟨s', hs'⟩ := hL
    obtain ⟨s0, m, k1, k2⟩ := draw_ok hs'
    exact ⟨s0, k1⟩
  sampled w x y r p hL := by
    obtain ⟨s', hs'⟩ := hL
    have hs'' : (getColor env sch w x y r p).2.surf = .ok s' := hs'
    unfold getColor at hs''
    cases hw : w.surf with
    | error f => rw [hw] at hs''; dsimp only at hs''; rw [hw] at hs''; cases hs''
    | ok s => exact ⟨s, hw⟩

/-- The symmetry settings are in force. -/
def Settled (d : Symm.Data K) : Prop := d.pendingChanges = false ∨ Symm.statesEqual d.current d.pending = true

omit [IsStrictOrderedRing K] [FloorRing K] in
theorem Settled.update {d : Symm.Data K} (h : Settled d) (trig : Symm.Trig K) (alloc : Int → Bool) :
    Symm.update trig alloc d = .ok d := by
  unfold Symm.update
  rw [if_pos]
  rcases h with h | h <;> simp [h]

/-- The same copies are drawn: the settings are the same and in force, or there are no copies. -/
def Agree (d d' : Symm.Data K) : Prop := (d = d' ∧ Settled d) ∨ (d.active = false ∧ d'.active = false)

omit [IsStrictOrderedRing K] in
theorem copies_nil {d : Symm.Data K} (h : d.active = false) (a : Args K) : Spec.Now.copies d a = [] := by
  unfold Spec.Now.copies Symm.passes
  rw [if_neg (by rw [h]; simp)]
  rfl

omit [IsStrictOrderedRing K] in
theorem Agree.draw {d d' : Symm.Data K} (h : Agree d d') (env : Dab.Env K) : Spec.Now.draw env d = Spec.Now.draw env d' := by
  rcases h with ⟨rfl, -⟩ | ⟨h1, h2⟩
  · rfl
  · funext v a
    unfold Spec.Now.draw
    rw [copies_nil h1, copies_nil h2]

/-- A block of motions. -/
theorem block_now {e : Engine.Env K R σ} {b : Build} {env : Dab.Env K} {trig : Symm.Trig K} {sch : Schedule} {fuel : Nat}
    {s s' : Studio K R} {bl : Block K} {rs : List Rect} (hs : Sound b env trig s.surf s.surf.surf.canvas)
    {d : Symm.Data K} (hd : Agree d s.surf.symm) (hb : ∀ l, (bl.order l).Perm l) (hy : bl.symmetry = none)
    (h : block e b env trig sch fuel s bl = .ok (rs, s')) :
    Spec.Now.paint e env d sch fuel s.brush ⟨s.surf.surf.canvas, s.samples⟩ bl.motions =
      .ok (s'.brush, ⟨s'.surf.surf.canvas, s'.samples⟩) ∧ Agree d s'.surf.symm ∧
      Sound b env trig s'.surf s'.surf.surf.canvas := by
  unfold block at h
  obtain ⟨s1, h1, h⟩ := except_bind_ok h
  obtain ⟨⟨br, w⟩, h2, h⟩ := except_bind_ok h
  obtain ⟨s2, h3, h⟩ := except_bind_ok h
  obtain ⟨⟨rs', s3⟩, h4, h⟩ := except_bind_ok h
  cases h
  dsimp only at h3 h4 ⊢
  have hset : bl.setUp s.surf = s.surf := by
    unfold Block.setUp
    rw [hy]
  rw [hset] at h1
  obtain ⟨k1, -, -, k2⟩ := beginAtomic_sound h1 hs
  have k3 : Agree d s1.symm := by
    rcases hd with ⟨e1, e2⟩ | ⟨e1, e2⟩
    · rw [← e1, Settled.update (e1 ▸ e2)] at k2
      exact .inl ⟨Except.ok.inj k2, e2⟩
    · obtain ⟨d', hu', -, -, ha⟩ := Symm.update_inv trig bl.alloc hs.symm
      rw [k2] at hu'
      rw [← Except.ok.inj hu'] at ha
      exact .inr ⟨e1, ha.trans e2⟩
  obtain ⟨v, q1, s2', q2, q3, q4, q5⟩ := strokes_follow (tiles_follow e b env trig s1.symm sch) bl.motions
    (t := ⟨s.surf.surf.canvas, s.samples⟩) ⟨s1, rfl, rfl, k1, rfl⟩ h2 ⟨s2, h3⟩
  dsimp only at q2 q5
  rw [h3] at q2
  cases q2
  obtain ⟨r1, r2, -⟩ := endAtomic_sound hb h4 q4
  have hsy : s3.symm = s2.symm := by
    unfold endAtomic at h4
    obtain ⟨su, -, h4⟩ := except_bind_ok h4
    cases hr : bl.roi with
    | none => rw [hr] at h4; cases h4; rfl
    | some p =>
      rw [hr] at h4
      obtain ⟨rr, -, h4⟩ := except_bind_ok h4
      cases h4
      rfl
  refine ⟨?_, by rw [hsy, q3]; exact k3, r2 ▸ r1⟩
  unfold Spec.Now.paint
  rw [r2, q5, k3.draw]
  exact q1

end
end Verif.Painting
