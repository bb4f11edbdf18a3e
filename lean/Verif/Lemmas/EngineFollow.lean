import Verif.Lemmas.EngineSession
import Verif.Model.Painting

/-!
# One surface follows another

Two surfaces, related to each other, give the same answers as long as the first one has not failed. Then a session on the
first one, if it does not fail, has its counterpart on the second one.
-/

namespace Verif.Engine
open Verif.Mask Verif.Color Verif.Spectral Verif.Map

section
variable {K R σ τ : Type} [Field K] [LinearOrder K] [FloorRing K]

/-- The surface of `e.on d g` follows that of `e`. `L` is: not failed. -/
structure Follows (e : Env K R σ) (d : τ → Dab.Args K → Bool × τ) (g : τ → Int → Int → K → K → Rgba K × τ)
    (P : σ → τ → Prop) (L : σ → Prop) : Prop where
  draw : ∀ s t a, P s t → L (e.draw s a).2 → (d t a).1 = (e.draw s a).1 ∧ P (e.draw s a).2 (d t a).2
  getColor : ∀ s t x y r p, P s t → L (e.getColor s x y r p).2 →
    (g t x y r p).1 = (e.getColor s x y r p).1 ∧ P (e.getColor s x y r p).2 (g t x y r p).2
  drawn : ∀ s a, L (e.draw s a).2 → L s
  sampled : ∀ s x y r p, L (e.getColor s x y r p).2 → L s

variable {e : Env K R σ} {d : τ → Dab.Args K → Bool × τ} {g : τ → Int → Int → K → K → Rgba K × τ} {P : σ → τ → Prop}
  {L : σ → Prop}

omit [FloorRing K] in
theorem updateSmudge_follow (H : Follows e d g P L) {b : Brush K R} {s : σ} {t : τ} (hP : P s t) {v : Bucket K} {px py : Int}
    {radius : K} (hL : L (updateSmudge e b s v px py radius).2.2.1) :
    L s ∧ ∃ t', updateSmudge (e.on d g) b t v px py radius =
      ((updateSmudge e b s v px py radius).1, (updateSmudge e b s v px py radius).2.1, t',
        (updateSmudge e b s v px py radius).2.2.2) ∧ P (updateSmudge e b s v px py radius).2.2.1 t' := by
  unfold updateSmudge at hL ⊢
  dsimp only [Env.on] at hL ⊢
  have k := H.getColor s t px py (clampK (radius * e.exp (b.vals sSmudgeRadiusLog)) (1 / 5) 1000)
    (if legacySmudge b then -1 else b.vals sPaintMode) hP
  have k' := H.sampled s px py (clampK (radius * e.exp (b.vals sSmudgeRadiusLog)) (1 / 5) 1000)
    (if legacySmudge b then -1 else b.vals sPaintMode)
  by_cases hr : v.recentness * maxC (1 / 100) (b.vals sSmudgeLength) <
      minC 1 (e.pow (1 / 2 * maxC (1 / 100) (b.vals sSmudgeLength)) (b.vals sSmudgeLengthLog) + 1 / 10 ^ 16)
  · simp only [hr, if_true, true_and] at hL ⊢
    generalize e.getColor s px py (clampK (radius * e.exp (b.vals sSmudgeRadiusLog)) (1 / 5) 1000)
      (if legacySmudge b then -1 else b.vals sPaintMode) = q at *
    generalize g t px py (clampK (radius * e.exp (b.vals sSmudgeRadiusLog)) (1 / 5) 1000)
      (if legacySmudge b then -1 else b.vals sPaintMode) = q' at *
    by_cases h1 : b.vals sSmudgeTransparency > 0 ∧ q.1.a < b.vals sSmudgeTransparency ∨
      b.vals sSmudgeTransparency < 0 ∧ q.1.a > -b.vals sSmudgeTransparency
    · simp only [h1, if_true] at hL ⊢
      obtain ⟨k1, k2⟩ := k hL
      rw [k1, if_pos h1]
      exact ⟨k' hL, q'.2, rfl, k2⟩
    · simp only [h1, if_false] at hL ⊢
      have hL' : L q.2 := by
        revert hL
        cases legacySmudge b
        · by_cases h2 : q.1.a > 1 / 1000 * 10
          · simp only [h2, if_true, Bool.false_eq_true, if_false, imp_self]
          · simp only [h2, Bool.false_eq_true, if_false, imp_self]
        · simp only [if_true, imp_self]
      obtain ⟨k1, k2⟩ := k hL'
      rw [k1, if_neg h1]
      refine ⟨k' hL', q'.2, ?_⟩
      cases legacySmudge b
      · by_cases h2 : q.1.a > 1 / 1000 * 10
        · simp only [h2, if_true, Bool.false_eq_true, if_false]
          exact ⟨trivial, k2⟩
        · simp only [h2, Bool.false_eq_true, if_false]
          exact ⟨trivial, k2⟩
      · simp only [if_true]
        exact ⟨trivial, k2⟩
  · simp only [hr, if_false, false_and] at hL ⊢
    cases hl : legacySmudge b
    · by_cases h2 : v.prevA > 1 / 1000 * 10
      · simp only [hl, h2, if_true, Bool.false_eq_true, if_false] at hL ⊢
        exact ⟨hL, t, rfl, hP⟩
      · simp only [hl, h2, Bool.false_eq_true, if_false] at hL ⊢
        exact ⟨hL, t, rfl, hP⟩
    · simp only [hl, if_true] at hL ⊢
      exact ⟨hL, t, rfl, hP⟩

theorem smudgeStage_follow (H : Follows e d g P L) {b : Brush K R} {s : σ} {t : τ} (hP : P s t) {x y radius : K}
    {sm : Bool × Brush K R × σ} (h : smudgeStage e b s x y radius = .ok sm) (hL : L sm.2.2) :
    L s ∧ ∃ t', smudgeStage (e.on d g) b t x y radius = .ok (sm.1, sm.2.1, t') ∧ P sm.2.2 t' := by
  unfold smudgeStage at h ⊢
  by_cases q : b.vals sSmudgeLength < 1 ∧ (b.vals sSmudge ≠ 0 ∨ isConstant (b.settings sSmudge) = false)
  · rw [if_pos q] at h ⊢
    dsimp only at h ⊢
    obtain ⟨v, h1, h⟩ := bind_ok h
    obtain ⟨px, h2, h⟩ := bind_ok h
    obtain ⟨py, h3, h⟩ := bind_ok h
    obtain ⟨b2, h4, h⟩ := bind_ok h
    rw [← Except.ok.inj h] at hL ⊢
    obtain ⟨k1, t', k2, k3⟩ := updateSmudge_follow H hP hL
    refine ⟨k1, t', ?_, k3⟩
    rw [ok_bind h1, ok_bind h2, ok_bind h3, k2, ok_bind h4]
    rfl
  · rw [if_neg q] at h ⊢
    rw [← Except.ok.inj h] at hL ⊢
    exact ⟨hL, t, rfl, hP⟩

theorem drawDab_follow (H : Follows e d g P L) {b : Brush K R} {s : σ} {t : τ} (hP : P s t) {lin : Bool}
    {p : Bool × Brush K R × σ} (h : drawDab e b s lin = .ok p) (hL : L p.2.2) :
    L s ∧ ∃ t', drawDab (e.on d g) b t lin = .ok (p.1, p.2.1, t') ∧ P p.2.2 t' := by
  unfold drawDab at h ⊢
  obtain ⟨o, h1, h⟩ := bind_ok h
  obtain ⟨pos, h2, h⟩ := bind_ok h
  dsimp only at h
  obtain ⟨sm, h3, h⟩ := bind_ok h
  have e1 : dabOpacity (e.on d g) b = .ok o := h1
  have e2 : dabPosition (e.on d g) b = .ok pos := h2
  have e4 : dabRadius (e.on d g) pos.2.2 o = dabRadius e pos.2.2 o := rfl
  rw [ok_bind e1, ok_bind e2]
  dsimp only
  rw [e4]
  by_cases q : sm.1 = true
  · rw [if_pos q] at h
    rw [← Except.ok.inj h] at hL ⊢
    obtain ⟨k1, t', k2, k3⟩ := smudgeStage_follow H hP h3 hL
    refine ⟨k1, t', ?_, k3⟩
    rw [ok_bind k2, if_pos q]
    rfl
  · rw [if_neg q] at h
    obtain ⟨col, h4, h⟩ := bind_ok h
    rw [← Except.ok.inj h] at hL ⊢
    have hL' := H.drawn _ _ hL
    obtain ⟨k1, t', k2, k3⟩ := smudgeStage_follow H hP h3 hL'
    obtain ⟨k4, k5⟩ := H.draw _ t' _ k3 hL
    refine ⟨k1, _, ?_, k5⟩
    rw [ok_bind k2, if_neg q]
    have e5 : smudgeColor (e.on d g) sm.2.1 (hsvToRgb ⟨b.baseval sColorH, b.baseval sColorS, b.baseval sColorV⟩) = .ok col := h4
    rw [ok_bind e5]
    dsimp only
    rw [← k4]
    rfl

/-- Two loops that differ in the surface only. -/
def onSurf (l : Loop K R σ) (t : τ) : Loop K R τ :=
  { b := l.b, surf := t, moved := l.moved, todo := l.todo, dtimeLeft := l.dtimeLeft, painted := l.painted }

theorem dabStep_follow (H : Follows e d g P L) {ev : Event K} {x y : K} {l l' : Loop K R σ} {t : τ} (hP : P l.surf t)
    (h : dabStep e ev x y l = .ok l') (hL : L l'.surf) :
    L l.surf ∧ ∃ t', dabStep (e.on d g) ev x y (onSurf l t) = .ok (onSurf l' t') ∧ P l'.surf t' := by
  unfold dabStep at h ⊢
  dsimp only at h ⊢
  by_cases q : l.todo = 0
  · rw [if_pos q] at h; cases h
  · rw [if_neg q] at h
    rw [if_neg (show ¬ (onSurf l t).todo = 0 from q)]
    obtain ⟨b, h1, h⟩ := bind_ok h
    obtain ⟨p, h2, h⟩ := bind_ok h
    rw [← Except.ok.inj h] at hL ⊢
    obtain ⟨k1, t', k2, k3⟩ := drawDab_follow H hP h2 hL
    refine ⟨k1, t', ?_, k3⟩
    have e1 : update (e.on d g) (onSurf l t).b (stepTo (onSurf l t).b.st ev x y
      (if (onSurf l t).moved > 0 then 1 - (onSurf l t).moved else 1)
      ((if (onSurf l t).moved > 0 then 1 - (onSurf l t).moved else 1) / (onSurf l t).todo) (onSurf l t).dtimeLeft) = .ok b := h1
    rw [ok_bind e1]
    have e2 : drawDab (e.on d g) { b with st := { b.st with flip := b.st.flip * -1 } } (onSurf l t).surf ev.linear =
      .ok (p.1, p.2.1, t') := k2
    rw [ok_bind e2]
    rfl

omit [FloorRing K] in
/-- Every surface follows itself. -/
theorem Follows.self (H : Follows e d g P L) : Follows e e.draw e.getColor Eq L :=
  ⟨fun s t a h _ => by subst h; exact ⟨rfl, rfl⟩, fun s t x y r p h _ => by subst h; exact ⟨rfl, rfl⟩, H.drawn, H.sampled⟩

theorem dabStep_live (H : Follows e d g P L) {ev : Event K} {x y : K} {l l' : Loop K R σ}
    (h : dabStep e ev x y l = .ok l') (hL : L l'.surf) : L l.surf := (dabStep_follow H.self rfl h hL).1

theorem dabLoop_live (H : Follows e d g P L) {ev : Event K} {x y : K} (fuel : Nat) : ∀ {l l' : Loop K R σ},
    dabLoop e ev x y fuel l = .ok l' → L l'.surf → L l.surf := by
  induction fuel with
  | zero =>
    intro l l' h hL
    unfold dabLoop at h
    by_cases q : l.moved + l.todo ≥ 1
    · rw [if_pos q] at h; cases h
    · rw [if_neg q] at h
      rw [← Except.ok.inj h] at hL
      exact hL
  | succ fuel ih =>
    intro l l' h hL
    unfold dabLoop at h
    by_cases q : l.moved + l.todo ≥ 1
    · rw [if_pos q] at h
      obtain ⟨l1, h1, h2⟩ := bind_ok h
      exact dabStep_live H h1 (ih h2 hL)
    · rw [if_neg q] at h
      rw [← Except.ok.inj h] at hL
      exact hL

theorem dabLoop_follow (H : Follows e d g P L) {ev : Event K} {x y : K} (fuel : Nat) : ∀ {l l' : Loop K R σ} {t : τ},
    P l.surf t → dabLoop e ev x y fuel l = .ok l' → L l'.surf →
    ∃ t', dabLoop (e.on d g) ev x y fuel (onSurf l t) = .ok (onSurf l' t') ∧ P l'.surf t' := by
  induction fuel with
  | zero =>
    intro l l' t hP h hL
    unfold dabLoop at h ⊢
    by_cases q : l.moved + l.todo ≥ 1
    · rw [if_pos q] at h; cases h
    · rw [if_neg q] at h
      rw [if_neg (show ¬ (onSurf l t).moved + (onSurf l t).todo ≥ 1 from q)]
      rw [← Except.ok.inj h]
      exact ⟨t, rfl, hP⟩
  | succ fuel ih =>
    intro l l' t hP h hL
    unfold dabLoop at h ⊢
    by_cases q : l.moved + l.todo ≥ 1
    · rw [if_pos q] at h
      rw [if_pos (show (onSurf l t).moved + (onSurf l t).todo ≥ 1 from q)]
      obtain ⟨l1, h1, h2⟩ := bind_ok h
      obtain ⟨-, t1, k1, k2⟩ := dabStep_follow H hP h1 (dabLoop_live H fuel h2 hL)
      obtain ⟨t2, k3, k4⟩ := ih k2 h2 hL
      exact ⟨t2, by rw [ok_bind k1]; exact k3, k4⟩
    · rw [if_neg q] at h
      rw [if_neg (show ¬ (onSurf l t).moved + (onSurf l t).todo ≥ 1 from q)]
      rw [← Except.ok.inj h]
      exact ⟨t, rfl, hP⟩

theorem moveTo_follow (H : Follows e d g P L) {fuel : Nat} {b : Brush K R} {s : σ} {t : τ} (hP : P s t) {ev : Event K}
    {x y dt : K} {p : Bool × Brush K R × σ} (h : moveTo e fuel b s ev x y dt = .ok p) (hL : L p.2.2) :
    L s ∧ ∃ t', moveTo (e.on d g) fuel b t ev x y dt = .ok (p.1, p.2.1, t') ∧ P p.2.2 t' := by
  unfold moveTo at h ⊢
  dsimp only at h ⊢
  obtain ⟨l, h1, h⟩ := bind_ok h
  obtain ⟨b2, h2, h⟩ := bind_ok h
  rw [← Except.ok.inj h] at hL ⊢
  refine ⟨dabLoop_live H fuel h1 hL, ?_⟩
  obtain ⟨t', k1, k2⟩ := dabLoop_follow H fuel (t := t) hP h1 hL
  refine ⟨t', ?_, k2⟩
  have e1 : dabLoop (e.on d g) ev x y fuel
      ⟨(countDabs (e.on d g) b x y dt).2, t, b.st.partialDabs, (countDabs (e.on d g) b x y dt).1, dt, .unknown⟩ =
      .ok (onSurf l t') := k1
  rw [ok_bind e1]
  have e2 : update (e.on d g) (onSurf l t').b (stepTo (onSurf l t').b.st ev x y (onSurf l t').todo 1 (onSurf l t').dtimeLeft) =
    .ok b2 := h2
  rw [ok_bind e2]
  rfl

theorem strokeEvent_follow (H : Follows e d g P L) {fuel : Nat} {b : Brush K R} {s : σ} {t : τ} (hP : P s t) {ev : Event K}
    {p : Bool × Brush K R × σ} (h : strokeEvent e fuel b s ev = .ok p) (hL : L p.2.2) :
    L s ∧ ∃ t', strokeEvent (e.on d g) fuel b t ev = .ok (p.1, p.2.1, t') ∧ P p.2.2 t' := by
  unfold strokeEvent at h ⊢
  dsimp only at h ⊢
  have k1 : skipStage (e.on d g) b ev.x ev.y ev.dtime = skipStage e b ev.x ev.y ev.dtime := rfl
  rw [k1]
  generalize skipStage e b ev.x ev.y ev.dtime = sk at *
  by_cases q : sk.2.2 = true
  · rw [if_pos q] at h ⊢
    rw [← Except.ok.inj h] at hL ⊢
    exact ⟨hL, t, rfl, hP⟩
  · rw [if_neg q] at h ⊢
    have k2 : cursor (e.on d g) sk.1 ev.x ev.y sk.2.1 = cursor e sk.1 ev.x ev.y sk.2.1 := rfl
    rw [k2]
    generalize cursor e sk.1 ev.x ev.y sk.2.1 = c at *
    by_cases q2 : sk.2.1 > 5 ∨ b.resetRequested = true
    · rw [if_pos q2] at h ⊢
      obtain ⟨b2, h2, h⟩ := bind_ok h
      rw [← Except.ok.inj h] at hL ⊢
      have e2 : startOver (e.on d g) c.2.2 c.1 c.2.1 ev.pressure = .ok b2 := h2
      rw [ok_bind e2]
      exact ⟨hL, t, rfl, hP⟩
    · rw [if_neg q2] at h ⊢
      exact moveTo_follow H hP h hL

theorem strokeTo_follow (H : Follows e d g P L) {fuel : Nat} {b : Brush K R} {s : σ} {t : τ} (hP : P s t) {m : Motion K}
    {p : Bool × Brush K R × σ} (h : strokeTo e fuel b s m = .ok p) (hL : L p.2.2) :
    L s ∧ ∃ t', strokeTo (e.on d g) fuel b t m = .ok (p.1, p.2.1, t') ∧ P p.2.2 t' := by
  unfold strokeTo at h ⊢
  obtain ⟨ev, h1, h⟩ := bind_ok h
  have e1 : sanitise (e.on d g) m = .ok ev := h1
  rw [ok_bind e1]
  by_cases q : ev.dtime > 1 / 10 ∧ ev.pressure ≠ 0 ∧ b.st.pressure = 0
  · rw [if_pos q] at h ⊢
    obtain ⟨i, h2, h⟩ := bind_ok h
    obtain ⟨r, h3, h⟩ := bind_ok h
    have e2 : sanitise (e.on d g) (workaroundMotion ev) = .ok i := h2
    have hL' := (strokeEvent_follow H.self rfl h hL).1
    obtain ⟨k1, t1, k2, k3⟩ := strokeEvent_follow H hP h3 hL'
    obtain ⟨-, t2, k4, k5⟩ := strokeEvent_follow H k3 h hL
    refine ⟨k1, t2, ?_, k5⟩
    rw [ok_bind e2, ok_bind k2]
    exact k4
  · rw [if_neg q] at h ⊢
    exact strokeEvent_follow H hP h hL

theorem strokes_live (H : Follows e d g P L) {fuel : Nat} (ms : List (Motion K)) : ∀ {b : Brush K R} {s : σ}
    {r : Brush K R × σ}, strokes e fuel b s ms = .ok r → L r.2 → L s := by
  induction ms with
  | nil =>
    intro b s r h hL
    rw [← Except.ok.inj h] at hL
    exact hL
  | cons m ms ih =>
    intro b s r h hL
    unfold strokes at h
    obtain ⟨p, h1, h2⟩ := bind_ok h
    exact (strokeTo_follow H.self rfl h1 (ih h2 hL)).1

/-- A session that does not fail on the one surface is the same on the other. -/
theorem strokes_follow (H : Follows e d g P L) {fuel : Nat} (ms : List (Motion K)) : ∀ {b : Brush K R} {s : σ} {t : τ}
    {r : Brush K R × σ}, P s t → strokes e fuel b s ms = .ok r → L r.2 →
    ∃ t', strokes (e.on d g) fuel b t ms = .ok (r.1, t') ∧ P r.2 t' := by
  induction ms with
  | nil =>
    intro b s t r hP h hL
    rw [← Except.ok.inj h]
    exact ⟨t, rfl, hP⟩
  | cons m ms ih =>
    intro b s t r hP h hL
    unfold strokes at h
    obtain ⟨p, h1, h2⟩ := bind_ok h
    obtain ⟨-, t1, k1, k2⟩ := strokeTo_follow H hP h1 (strokes_live H ms h2 hL)
    obtain ⟨t2, k3, k4⟩ := ih k2 h2 hL
    refine ⟨t2, ?_, k4⟩
    unfold strokes
    rw [ok_bind k1]
    exact k3

end
end Verif.Engine
