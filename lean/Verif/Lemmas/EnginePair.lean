import Verif.Lemmas.EngineSim

/-!
# The same session on two surfaces

As long as two surfaces answer alike, the brush cannot tell them apart. The session is followed on the first surface, with
the second one beside it for as long as it gives the same answers.
-/

namespace Verif.Engine
open Verif.Mask Verif.Color Verif.Spectral Verif.Map

section
variable {K R σ τ : Type} [Field K] [LinearOrder K] [IsStrictOrderedRing K] [FloorRing K]

open Classical in
/-- The surface of `e`, and beside it another one until it gives another answer. -/
noncomputable def beside (e : Env K R σ) (d : τ → Dab.Args K → Bool × τ) (g : τ → Int → Int → K → K → Rgba K × τ) :
    Env K R (σ × Option τ) :=
  e.on (fun s a => ((e.draw s.1 a).1, (e.draw s.1 a).2,
      s.2.bind fun t => if (d t a).1 = (e.draw s.1 a).1 then some (d t a).2 else none))
    (fun s x y r p => ((e.getColor s.1 x y r p).1, (e.getColor s.1 x y r p).2,
      s.2.bind fun t => if (g t x y r p).1 = (e.getColor s.1 x y r p).1 then some (g t x y r p).2 else none))

variable {e : Env K R σ} {d : τ → Dab.Args K → Bool × τ} {g : τ → Int → Int → K → K → Rgba K × τ}

omit [IsStrictOrderedRing K] in
theorem draw_beside {s : σ × Option τ} {a : Dab.Args K} {t' : τ} (h : ((beside e d g).draw s a).2.2 = some t') :
    ∃ t, s.2 = some t ∧ d t a = (((beside e d g).draw s a).1, t') := by
  obtain ⟨t, ht, h⟩ := Option.bind_eq_some_iff.mp h
  split_ifs at h with q
  exact ⟨t, ht, Prod.ext q (Option.some.inj h)⟩

omit [IsStrictOrderedRing K] in
theorem getColor_beside {s : σ × Option τ} {x y : Int} {r p : K} {t' : τ}
    (h : ((beside e d g).getColor s x y r p).2.2 = some t') :
    ∃ t, s.2 = some t ∧ g t x y r p = (((beside e d g).getColor s x y r p).1, t') := by
  obtain ⟨t, ht, h⟩ := Option.bind_eq_some_iff.mp h
  split_ifs at h with q
  exact ⟨t, ht, Prod.ext q (Option.some.inj h)⟩

omit [IsStrictOrderedRing K] in
theorem updateSmudge_beside {b : Brush K R} {s : σ × Option τ} {v : Bucket K} {px py : Int} {radius : K} {t' : τ}
    (h : (updateSmudge (beside e d g) b s v px py radius).2.2.1.2 = some t') :
    ∃ t, s.2 = some t ∧ updateSmudge (e.on d g) b t v px py radius =
      ((updateSmudge (beside e d g) b s v px py radius).1, (updateSmudge (beside e d g) b s v px py radius).2.1, t',
        (updateSmudge (beside e d g) b s v px py radius).2.2.2) := by
  by_cases hr : v.recentness * maxC (1 / 100) (b.vals sSmudgeLength) <
      minC 1 (e.pow (1 / 2 * maxC (1 / 100) (b.vals sSmudgeLength)) (b.vals sSmudgeLengthLog) + 1 / 10 ^ 16)
  · have hs : ∀ {ρ : Type} (E : Env K R ρ) (u : ρ), E.pow = e.pow → E.exp = e.exp → (updateSmudge E b u v px py radius).2.2.1 =
        (E.getColor u px py (clampK (radius * e.exp (b.vals sSmudgeRadiusLog)) (1 / 5) 1000)
          (if legacySmudge b then -1 else b.vals sPaintMode)).2 := by
      intro ρ E u h1 h2
      unfold updateSmudge
      simp only [h1, h2, hr, if_true]
      split_ifs <;> rfl
    rw [hs (beside e d g) s rfl rfl] at h
    obtain ⟨t, ht, q⟩ := getColor_beside h
    refine ⟨t, ht, ?_⟩
    unfold updateSmudge
    dsimp only [Env.on]
    have e1 : (beside e d g).pow = e.pow := rfl
    have e2 : (beside e d g).exp = e.exp := rfl
    simp only [e1, e2, q, hr, if_true, true_and]
    split_ifs <;> rfl
  · have hs : (updateSmudge (beside e d g) b s v px py radius).2.2.1 = s := by
      unfold updateSmudge
      have e1 : (beside e d g).pow = e.pow := rfl
      simp only [e1, hr, if_false]
      split_ifs <;> rfl
    rw [hs] at h
    refine ⟨t', h, ?_⟩
    unfold updateSmudge
    have e1 : (beside e d g).pow = e.pow := rfl
    have e2 : (e.on d g).pow = e.pow := rfl
    simp only [e1, e2, hr, if_false, false_and]
    split_ifs <;> rfl

omit [IsStrictOrderedRing K] in
theorem smudgeStage_beside {b : Brush K R} {s : σ × Option τ} {x y radius : K} {r : Bool × Brush K R × (σ × Option τ)} {t' : τ}
    (h : smudgeStage (beside e d g) b s x y radius = .ok r) (ht : r.2.2.2 = some t') :
    ∃ t, s.2 = some t ∧ smudgeStage (e.on d g) b t x y radius = .ok (r.1, r.2.1, t') := by
  unfold smudgeStage at h ⊢
  by_cases q : b.vals sSmudgeLength < 1 ∧ (b.vals sSmudge ≠ 0 ∨ isConstant (b.settings sSmudge) = false)
  · rw [if_pos q] at h
    obtain ⟨v, h1, h⟩ := bind_ok h
    obtain ⟨px, h2, h⟩ := bind_ok h
    obtain ⟨py, h3, h⟩ := bind_ok h
    obtain ⟨b', h4, h⟩ := bind_ok h
    cases h
    obtain ⟨t, e1, e2⟩ := updateSmudge_beside ht
    refine ⟨t, e1, ?_⟩
    rw [if_pos q]
    simp only [h1, h2, h3, bind, Except.bind, e2, h4]
    rfl
  · rw [if_neg q] at h
    cases h
    refine ⟨t', ht, ?_⟩
    rw [if_neg q]
    rfl

omit [IsStrictOrderedRing K] in
theorem drawDab_beside {b : Brush K R} {s : σ × Option τ} {lin : Bool} {r : Bool × Brush K R × (σ × Option τ)} {t' : τ}
    (h : drawDab (beside e d g) b s lin = .ok r) (ht : r.2.2.2 = some t') :
    ∃ t, s.2 = some t ∧ drawDab (e.on d g) b t lin = .ok (r.1, r.2.1, t') := by
  unfold drawDab at h ⊢
  obtain ⟨o, h1, h⟩ := bind_ok h
  obtain ⟨pos, h2, h⟩ := bind_ok h
  obtain ⟨⟨stop, b1, s1⟩, h3, h⟩ := bind_ok h
  have h1' : dabOpacity (e.on d g) b = .ok o := h1
  have h2' : dabPosition (e.on d g) b = .ok pos := h2
  cases stop with
  | true =>
    simp only [if_true] at h
    cases h
    obtain ⟨t, e1, e2⟩ := smudgeStage_beside h3 ht
    refine ⟨t, e1, ?_⟩
    have e2' : smudgeStage (e.on d g) (dabRadius (e.on d g) pos.2.2 o).2.2 t pos.1 pos.2.1 (dabRadius (e.on d g) pos.2.2 o).1 = _ := e2
    simp only [h1', h2', bind, Except.bind, e2']
    rfl
  | false =>
    simp only [Bool.false_eq_true, if_false] at h
    obtain ⟨col, h4, h⟩ := bind_ok h
    cases h
    obtain ⟨t1, e1, e2⟩ := draw_beside (e := e) (d := d) (g := g) ht
    obtain ⟨t, e3, e4⟩ := smudgeStage_beside h3 e1
    refine ⟨t, e3, ?_⟩
    have e4' : smudgeStage (e.on d g) (dabRadius (e.on d g) pos.2.2 o).2.2 t pos.1 pos.2.1 (dabRadius (e.on d g) pos.2.2 o).1 = _ := e4
    have h4' : smudgeColor (e.on d g) b1 _ = .ok col := h4
    simp only [h1', h2', bind, Except.bind, e4', h4']
    show Except.ok (α := Bool × Brush K R × τ) _ = _
    exact congrArg (fun p : Bool × τ => Except.ok (p.1, col.2.2, p.2)) e2

/-- A loop on another surface. -/
def Loop.on (l : Loop K R σ) (t : τ) : Loop K R τ :=
  { b := l.b, surf := t, moved := l.moved, todo := l.todo, dtimeLeft := l.dtimeLeft, painted := l.painted }

omit [IsStrictOrderedRing K] in
theorem dabStep_beside {ev : Event K} {x y : K} {l l' : Loop K R (σ × Option τ)} {t' : τ}
    (h : dabStep (beside e d g) ev x y l = .ok l') (ht : l'.surf.2 = some t') :
    ∃ t, l.surf.2 = some t ∧ dabStep (e.on d g) ev x y (l.on t) = .ok (l'.on t') := by
  unfold dabStep at h ⊢
  dsimp only at h
  by_cases q : l.todo = 0
  · rw [if_pos q] at h; cases h
  · rw [if_neg q] at h
    obtain ⟨b, h1, h⟩ := bind_ok h
    obtain ⟨p, h2, h⟩ := bind_ok h
    cases h
    obtain ⟨t, e1, e2⟩ := drawDab_beside h2 ht
    refine ⟨t, e1, ?_⟩
    dsimp only
    rw [if_neg (show ¬ (l.on t).todo = 0 from q)]
    have h1' : update (e.on d g) (l.on t).b (stepTo (l.on t).b.st ev x y (if (l.on t).moved > 0 then 1 - (l.on t).moved else 1)
        ((if (l.on t).moved > 0 then 1 - (l.on t).moved else 1) / (l.on t).todo) (l.on t).dtimeLeft) = .ok b := h1
    have e2' : drawDab (e.on d g) _ (l.on t).surf ev.linear = _ := e2
    simp only [bind, Except.bind, h1', e2']
    rfl

omit [IsStrictOrderedRing K] in
theorem dabLoop_beside {ev : Event K} {x y : K} (fuel : Nat) : ∀ {l l' : Loop K R (σ × Option τ)} {t' : τ},
    dabLoop (beside e d g) ev x y fuel l = .ok l' → l'.surf.2 = some t' →
    ∃ t, l.surf.2 = some t ∧ dabLoop (e.on d g) ev x y fuel (l.on t) = .ok (l'.on t') := by
  induction fuel with
  | zero =>
    intro l l' t' h ht
    unfold dabLoop at h
    by_cases q : l.moved + l.todo ≥ 1
    · rw [if_pos q] at h; cases h
    · rw [if_neg q] at h
      cases h
      refine ⟨t', ht, ?_⟩
      unfold dabLoop
      rw [if_neg (show ¬ (l.on t').moved + (l.on t').todo ≥ 1 from q)]
  | succ fuel ih =>
    intro l l' t' h ht
    unfold dabLoop at h
    by_cases q : l.moved + l.todo ≥ 1
    · rw [if_pos q] at h
      obtain ⟨l1, h1, h⟩ := bind_ok h
      obtain ⟨t1, e1, e2⟩ := ih h ht
      obtain ⟨t, e3, e4⟩ := dabStep_beside h1 e1
      refine ⟨t, e3, ?_⟩
      unfold dabLoop
      rw [if_pos (show (l.on t).moved + (l.on t).todo ≥ 1 from q)]
      simp only [bind, Except.bind, e4, e2]
    · rw [if_neg q] at h
      cases h
      refine ⟨t', ht, ?_⟩
      unfold dabLoop
      rw [if_neg (show ¬ (l.on t').moved + (l.on t').todo ≥ 1 from q)]

omit [IsStrictOrderedRing K] in
theorem moveTo_beside {fuel : Nat} {b : Brush K R} {s : σ × Option τ} {ev : Event K} {x y dt : K}
    {r : Bool × Brush K R × (σ × Option τ)} {t' : τ} (h : moveTo (beside e d g) fuel b s ev x y dt = .ok r)
    (ht : r.2.2.2 = some t') : ∃ t, s.2 = some t ∧ moveTo (e.on d g) fuel b t ev x y dt = .ok (r.1, r.2.1, t') := by
  unfold moveTo at h ⊢
  dsimp only at h
  obtain ⟨l, h1, h⟩ := bind_ok h
  obtain ⟨b1, h2, h⟩ := bind_ok h
  have hl : l.surf.2 = some t' := by cases h; exact ht
  obtain ⟨t, e1, e2⟩ := dabLoop_beside fuel h1 hl
  refine ⟨t, e1, ?_⟩
  have e2' : dabLoop (e.on d g) ev x y fuel ⟨(countDabs (e.on d g) b x y dt).2, t, b.st.partialDabs,
    (countDabs (e.on d g) b x y dt).1, dt, .unknown⟩ = .ok (l.on t') := e2
  have h2' : update (e.on d g) (l.on t').b (stepTo (l.on t').b.st ev x y (l.on t').todo 1 (l.on t').dtimeLeft) = .ok b1 := h2
  dsimp only
  simp only [bind, Except.bind, e2', h2']
  cases h
  rfl

omit [IsStrictOrderedRing K] in
theorem strokeEvent_beside {fuel : Nat} {b : Brush K R} {s : σ × Option τ} {ev : Event K}
    {r : Bool × Brush K R × (σ × Option τ)} {t' : τ} (h : strokeEvent (beside e d g) fuel b s ev = .ok r)
    (ht : r.2.2.2 = some t') : ∃ t, s.2 = some t ∧ strokeEvent (e.on d g) fuel b t ev = .ok (r.1, r.2.1, t') := by
  unfold strokeEvent at h ⊢
  dsimp only at h ⊢
  have k1 : ∀ x y t, skipStage (beside e d g) b x y t = skipStage e b x y t := fun _ _ _ => rfl
  have k1' : ∀ x y t, skipStage (e.on d g) b x y t = skipStage e b x y t := fun _ _ _ => rfl
  have k2 : ∀ b x y t, cursor (beside e d g) b x y t = cursor e b x y t := fun _ _ _ _ => rfl
  have k2' : ∀ b x y t, cursor (e.on d g) b x y t = cursor e b x y t := fun _ _ _ _ => rfl
  rw [k1] at h
  rw [k1']
  generalize skipStage e b ev.x ev.y ev.dtime = sk at h ⊢
  by_cases q : sk.2.2 = true
  · rw [if_pos q] at h
    simp only [if_pos q]
    cases h
    exact ⟨t', ht, rfl⟩
  · rw [if_neg q, k2] at h
    simp only [if_neg q, k2']
    generalize cursor e sk.1 ev.x ev.y sk.2.1 = c at h ⊢
    by_cases q2 : sk.2.1 > 5 ∨ b.resetRequested = true
    · rw [if_pos q2] at h
      simp only [if_pos q2]
      obtain ⟨b1, h1, h⟩ := bind_ok h
      have h1' : startOver (e.on d g) c.2.2 c.1 c.2.1 ev.pressure = .ok b1 := h1
      cases h
      refine ⟨t', ht, ?_⟩
      simp only [bind, Except.bind, h1']
      rfl
    · rw [if_neg q2] at h
      simp only [if_neg q2]
      exact moveTo_beside h ht

omit [IsStrictOrderedRing K] in
theorem strokeTo_beside {fuel : Nat} {b : Brush K R} {s : σ × Option τ} {m : Motion K}
    {r : Bool × Brush K R × (σ × Option τ)} {t' : τ} (h : strokeTo (beside e d g) fuel b s m = .ok r)
    (ht : r.2.2.2 = some t') : ∃ t, s.2 = some t ∧ strokeTo (e.on d g) fuel b t m = .ok (r.1, r.2.1, t') := by
  unfold strokeTo at h ⊢
  obtain ⟨ev, h1, h⟩ := bind_ok h
  have h1' : sanitise (e.on d g) m = .ok ev := h1
  simp only [bind, Except.bind, h1']
  by_cases q : ev.dtime > 1 / 10 ∧ ev.pressure ≠ 0 ∧ b.st.pressure = 0
  · rw [if_pos q] at h
    obtain ⟨i, h2, h⟩ := bind_ok h
    obtain ⟨r1, h3, h⟩ := bind_ok h
    have h2' : sanitise (e.on d g) (workaroundMotion ev) = .ok i := h2
    obtain ⟨t1, e1, e2⟩ := strokeEvent_beside h ht
    obtain ⟨t, e3, e4⟩ := strokeEvent_beside h3 e1
    refine ⟨t, e3, ?_⟩
    simp only [if_pos q, h2', e4, e2]
  · rw [if_neg q] at h
    simp only [if_neg q]
    exact strokeEvent_beside h ht

omit [IsStrictOrderedRing K] in
/-- If the second surface is still there at the end, the session on it is the same. -/
theorem strokes_beside {fuel : Nat} (ms : List (Motion K)) : ∀ {b : Brush K R} {s : σ × Option τ}
    {r : Brush K R × (σ × Option τ)} {t' : τ}, strokes (beside e d g) fuel b s ms = .ok r → r.2.2 = some t' →
    ∃ t, s.2 = some t ∧ strokes (e.on d g) fuel b t ms = .ok (r.1, t') := by
  induction ms with
  | nil =>
    intro b s r t' h ht
    cases h
    exact ⟨t', ht, rfl⟩
  | cons m ms ih =>
    intro b s r t' h ht
    unfold strokes at h
    obtain ⟨r1, h1, h⟩ := bind_ok h
    obtain ⟨t1, e1, e2⟩ := ih h ht
    obtain ⟨t, e3, e4⟩ := strokeTo_beside h1 e1
    refine ⟨t, e3, ?_⟩
    unfold strokes
    simp only [bind, Except.bind, e4, e2]

omit [IsStrictOrderedRing K] in
/-- The session on the first surface, with the second one beside it. -/
theorem strokes_started {fuel : Nat} (ms : List (Motion K)) {b : Brush K R} {s : σ} (t : Option τ)
    {r : Brush K R × σ} (h : strokes e fuel b s ms = .ok r) :
    ∃ t', strokes (beside e d g) fuel b (s, t) ms = .ok (r.1, r.2, t') := by
  have H : Shows e (beside e d g).draw (beside e d g).getColor Prod.fst := ⟨fun _ _ => rfl, fun _ _ _ _ _ => rfl⟩
  have k := strokes_see H fuel ms b (s, t)
  have e1 : e.on (beside e d g).draw (beside e d g).getColor = beside e d g := rfl
  rw [e1, h] at k
  cases hr : strokes (beside e d g) fuel b (s, t) ms with
  | error f => rw [hr] at k; cases k
  | ok q =>
    rw [hr] at k
    have := Except.ok.inj k
    exact ⟨q.2.2, by rw [this]⟩

end
end Verif.Engine
