import Verif.Model.Engine
import Verif.Lemmas.Colors
import Mathlib.Tactic.Linarith
import Mathlib.Tactic.LinearCombination
import Mathlib.Tactic.Ring
import Mathlib.Tactic.FieldSimp
import Mathlib.Tactic.Positivity

/-! # Helper lemmas for the brush engine -/

namespace Verif.Engine
open Verif.Mask Verif.Color Verif.Spectral Verif.Map

theorem bind_ok {α β : Type} {x : Except Fault α} {f : α → Except Fault β} {b : β} (h : (x >>= f) = .ok b) :
    ∃ a, x = .ok a ∧ f a = .ok b := by
  cases x with
  | error e => cases h
  | ok a => exact ⟨a, rfl, h⟩

theorem ok_bind {α β : Type} {x : Except Fault α} {f : α → Except Fault β} {a : α} (h : x = .ok a) :
    (x >>= f) = f a := by
  subst h; rfl

theorem bind_error {α β : Type} {x : Except Fault α} {f : α → Except Fault β} {r : Fault}
    (h : (x >>= f) = .error r) : x = .error r ∨ ∃ a, x = .ok a ∧ f a = .error r := by
  cases x with
  | error e => left; cases h; rfl
  | ok a => exact .inr ⟨a, rfl, h⟩

variable {K R σ : Type} [Field K] [LinearOrder K]

/-- What drawing a dab may change: the smudge memory, the generator, the static buffer. -/
def Frame (b b' : Brush K R) : Prop :=
  b' = { b with
    st := { b.st with smudge := b'.st.smudge }, buckets := b'.buckets, rng := b'.rng, mix := b'.mix }

omit [Field K] [LinearOrder K] in
theorem Frame.refl (b : Brush K R) : Frame b b := rfl

omit [Field K] [LinearOrder K] in
theorem Frame.trans {a b c : Brush K R} (h1 : Frame a b) (h2 : Frame b c) : Frame a c := by
  unfold Frame at *
  obtain ⟨t1, i1, s1, bk1, ra1, sk1, sx1, sy1, sd1, rn1, se1, v1, rr1, m1⟩ := a
  obtain ⟨t2, i2, s2, bk2, ra2, sk2, sx2, sy2, sd2, rn2, se2, v2, rr2, m2⟩ := b
  simp only [Brush.mk.injEq, and_true, true_and] at h1
  obtain ⟨rfl, rfl, h1, rfl, rfl, rfl, rfl, rfl, rfl, rfl, rfl⟩ := h1
  rw [h2]
  simp only [Brush.mk.injEq, and_true, true_and]
  rw [h1]

section fields
omit [Field K] [LinearOrder K]
variable {b b' : Brush K R}

theorem Frame.total (h : Frame b b') : b'.total = b.total := by rw [h]
theorem Frame.idle (h : Frame b b') : b'.idle = b.idle := by rw [h]
theorem Frame.random (h : Frame b b') : b'.random = b.random := by rw [h]
theorem Frame.settings (h : Frame b b') : b'.settings = b.settings := by rw [h]
theorem Frame.vals (h : Frame b b') : b'.vals = b.vals := by rw [h]
theorem Frame.resetRequested (h : Frame b b') : b'.resetRequested = b.resetRequested := by rw [h]
theorem Frame.st (h : Frame b b') : b'.st = { b.st with smudge := b'.st.smudge } := by
  have := congrArg Brush.st h
  exact this
end fields

section
variable [FloorRing K]

theorem fetchSmudge_frame (b : Brush K R) : Frame b (fetchSmudge b).2 := by
  unfold fetchSmudge
  split_ifs <;> rfl

theorem storeSmudge_frame {b b' : Brush K R} {v : Bucket K} {o : Option Int} (h : storeSmudge b v o = .ok b') :
    Frame b b' := by
  cases o with
  | none => rw [← Except.ok.inj h]; rfl
  | some o =>
    obtain ⟨m, -, h⟩ := bind_ok h
    rw [← Except.ok.inj h]; rfl

theorem dabPosition_frame {e : Env K R σ} {b : Brush K R} {p : K × K × Brush K R} (h : dabPosition e b = .ok p) :
    Frame b p.2.2 := by
  unfold dabPosition at h
  dsimp only at h
  split_ifs at h <;> first | (cases h; done) | (rw [← Except.ok.inj h]; rfl)

theorem dabRadius_frame (e : Env K R σ) (b : Brush K R) (o : K) : Frame b (dabRadius e b o).2.2 := by
  unfold dabRadius
  dsimp only
  split_ifs <;> rfl

theorem smudgeStage_frame {e : Env K R σ} {b : Brush K R} {surf : σ} {x y r : K} {p : Bool × Brush K R × σ}
    (h : smudgeStage e b surf x y r = .ok p) : Frame b p.2.1 := by
  unfold smudgeStage at h
  split_ifs at h
  · dsimp only at h
    obtain ⟨v, -, h⟩ := bind_ok h
    obtain ⟨px, -, h⟩ := bind_ok h
    obtain ⟨py, -, h⟩ := bind_ok h
    obtain ⟨b1, h1, h⟩ := bind_ok h
    rw [← Except.ok.inj h]
    exact ((fetchSmudge_frame b).trans (storeSmudge_frame h1)).trans rfl
  · rw [← Except.ok.inj h]; rfl

theorem smudgeColor_frame {e : Env K R σ} {b : Brush K R} {c : Rgb K} {p : K × Rgb K × Brush K R}
    (h : smudgeColor e b c = .ok p) : Frame b p.2.2 := by
  unfold smudgeColor at h
  split_ifs at h
  · dsimp only at h
    obtain ⟨v, -, h⟩ := bind_ok h
    rw [← Except.ok.inj h]
    exact (fetchSmudge_frame b).trans rfl
  · rw [← Except.ok.inj h]; rfl

theorem drawDab_frame {e : Env K R σ} {b : Brush K R} {surf : σ} {lin : Bool} {p : Bool × Brush K R × σ}
    (h : drawDab e b surf lin = .ok p) : Frame b p.2.1 := by
  unfold drawDab at h
  obtain ⟨o, -, h⟩ := bind_ok h
  obtain ⟨pos, hp, h⟩ := bind_ok h
  dsimp only at h
  obtain ⟨sm, hs, h⟩ := bind_ok h
  have f := ((dabPosition_frame hp).trans (dabRadius_frame e pos.2.2 o)).trans (smudgeStage_frame hs)
  split_ifs at h
  · rw [← Except.ok.inj h]; exact f
  · obtain ⟨col, hc, h⟩ := bind_ok h
    rw [← Except.ok.inj h]
    exact f.trans (smudgeColor_frame hc)

/-- A successful simulation step. -/
theorem update_eq {e : Env K R σ} {b b' : Brush K R} {s : Step K} (h : update e b s = .ok b') :
    b' = { b with
      st := followStates e b (moveStates e b s) (settingValues b.settings (inputsOf e b (moveStates e b s))) s
      vals := settingValues b.settings (inputsOf e b (moveStates e b s)) } := by
  unfold update at h
  dsimp only at h
  split_ifs at h
  exact (Except.ok.inj h).symm

/-- The parts of one successful turn of the dab loop. -/
theorem dabStep_eq {e : Env K R σ} {ev : Event K} {x y : K} {l l' : Loop K R σ} (h : dabStep e ev x y l = .ok l') :
    l.todo ≠ 0 ∧ ∃ b1 p b2, update e l.b (stepTo l.b.st ev x y (if l.moved > 0 then 1 - l.moved else 1)
        ((if l.moved > 0 then 1 - l.moved else 1) / l.todo) l.dtimeLeft) = .ok b1 ∧
      drawDab e { b1 with st := { b1.st with flip := b1.st.flip * -1 } } l.surf ev.linear = .ok p ∧
      b2 = { p.2.1 with random := (e.next p.2.1.rng).1, rng := (e.next p.2.1.rng).2 } ∧
      l' = { b := (countDabs e b2 x y (l.dtimeLeft - (if l.moved > 0 then 1 - l.moved else 1) / l.todo * l.dtimeLeft)).2
             surf := p.2.2
             moved := if l.moved > 0 then 0 else l.moved
             todo := (countDabs e b2 x y
               (l.dtimeLeft - (if l.moved > 0 then 1 - l.moved else 1) / l.todo * l.dtimeLeft)).1
             dtimeLeft := l.dtimeLeft - (if l.moved > 0 then 1 - l.moved else 1) / l.todo * l.dtimeLeft
             painted := if p.1 then .yes else if l.painted = .unknown then .no else l.painted } := by
  unfold dabStep at h
  generalize (if l.moved > 0 then 1 - l.moved else 1) = d at *
  dsimp only at h
  by_cases h0 : l.todo = 0
  · rw [if_pos h0] at h; cases h
  · rw [if_neg h0] at h
    refine ⟨h0, ?_⟩
    obtain ⟨b1, h1, h⟩ := bind_ok h
    obtain ⟨p, h2, h⟩ := bind_ok h
    exact ⟨b1, p, _, h1, h2, rfl, (Except.ok.inj h).symm⟩

/-- A property kept by every turn of the loop holds at its end, where less than one dab is pending. -/
theorem dabLoop_induct {e : Env K R σ} {ev : Event K} {x y : K} (P : Loop K R σ → Prop)
    (step : ∀ l l', l.moved + l.todo ≥ 1 → dabStep e ev x y l = .ok l' → P l → P l') (fuel : Nat) :
    ∀ l l', dabLoop e ev x y fuel l = .ok l' → P l → P l' ∧ l'.moved + l'.todo < 1 := by
  induction fuel with
  | zero =>
    intro l l' h hp
    unfold dabLoop at h
    split_ifs at h with hc
    rw [← Except.ok.inj h]
    exact ⟨hp, not_le.mp hc⟩
  | succ fuel ih =>
    intro l l' h hp
    unfold dabLoop at h
    split_ifs at h with hc
    · obtain ⟨l1, h1, h⟩ := bind_ok h
      exact ih l1 l' h (step l l1 hc h1 hp)
    · rw [← Except.ok.inj h]
      exact ⟨hp, not_le.mp hc⟩

theorem countDabs_nonneg (e : Env K R σ) (b : Brush K R) (x y dt : K) : 0 ≤ (countDabs e b x y dt).1 := by
  unfold countDabs
  dsimp only
  generalize (_ + _ + _ : K) = r
  split_ifs with h
  · exact le_refl _
  · exact not_lt.mp h

end

/-- The parts of a successful move. -/
theorem moveTo_eq [FloorRing K] {e : Env K R σ} {fuel : Nat} {b : Brush K R} {surf : σ} {ev : Event K} {x y dt : K}
    {r : Bool × Brush K R × σ} (h : moveTo e fuel b surf ev x y dt = .ok r) :
    ∃ l b1, dabLoop e ev x y fuel
        { b := (countDabs e b x y dt).2, surf := surf, moved := b.st.partialDabs
          todo := (countDabs e b x y dt).1, dtimeLeft := dt, painted := .unknown } = .ok l ∧
      update e l.b (stepTo l.b.st ev x y l.todo 1 l.dtimeLeft) = .ok b1 ∧
      r.1 = (splitStroke { b1 with st := { b1.st with partialDabs := l.moved + l.todo } } l.painted dt ev.pressure
        (1 * (ev.pressure - l.b.st.pressure))).1 ∧
      r.2.1 = (splitStroke { b1 with st := { b1.st with partialDabs := l.moved + l.todo } } l.painted dt ev.pressure
        (1 * (ev.pressure - l.b.st.pressure))).2 ∧
      r.2.2 = l.surf := by
  unfold moveTo at h
  dsimp only at h
  obtain ⟨l, h1, h⟩ := bind_ok h
  obtain ⟨b1, h2, h⟩ := bind_ok h
  refine ⟨l, b1, h1, h2, ?_⟩
  rw [← Except.ok.inj h]
  exact ⟨rfl, rfl, rfl⟩

/-- Splitting changes only the clocks. -/
theorem splitStroke_eq (b : Brush K R) (p : Painted) (dt pr dp : K) :
    (splitStroke b p dt pr dp).2 = { b with
      total := (splitStroke b p dt pr dp).2.total, idle := (splitStroke b p dt pr dp).2.idle } := by
  unfold splitStroke
  dsimp only
  split_ifs <;> rfl

/-- The three ways in which an event can go. -/
theorem strokeEvent_cases [FloorRing K] {e : Env K R σ} {fuel : Nat} {b : Brush K R} {surf : σ} {ev : Event K}
    {r : Bool × Brush K R × σ} (h : strokeEvent e fuel b surf ev = .ok r) :
    ((skipStage e b ev.x ev.y ev.dtime).2.2 = true ∧ r = (false, (skipStage e b ev.x ev.y ev.dtime).1, surf)) ∨
    ((skipStage e b ev.x ev.y ev.dtime).2.2 = false ∧
      ((skipStage e b ev.x ev.y ev.dtime).2.1 > 5 ∨ b.resetRequested = true) ∧
      ∃ b', startOver e (cursor e (skipStage e b ev.x ev.y ev.dtime).1 ev.x ev.y (skipStage e b ev.x ev.y ev.dtime).2.1).2.2
          (cursor e (skipStage e b ev.x ev.y ev.dtime).1 ev.x ev.y (skipStage e b ev.x ev.y ev.dtime).2.1).1
          (cursor e (skipStage e b ev.x ev.y ev.dtime).1 ev.x ev.y (skipStage e b ev.x ev.y ev.dtime).2.1).2.1
          ev.pressure = .ok b' ∧ r = (true, b', surf)) ∨
    ((skipStage e b ev.x ev.y ev.dtime).2.2 = false ∧
      ¬ ((skipStage e b ev.x ev.y ev.dtime).2.1 > 5 ∨ b.resetRequested = true) ∧
      moveTo e fuel (cursor e (skipStage e b ev.x ev.y ev.dtime).1 ev.x ev.y (skipStage e b ev.x ev.y ev.dtime).2.1).2.2
        surf ev
        (cursor e (skipStage e b ev.x ev.y ev.dtime).1 ev.x ev.y (skipStage e b ev.x ev.y ev.dtime).2.1).1
        (cursor e (skipStage e b ev.x ev.y ev.dtime).1 ev.x ev.y (skipStage e b ev.x ev.y ev.dtime).2.1).2.1
        (skipStage e b ev.x ev.y ev.dtime).2.1 = .ok r) := by
  unfold strokeEvent at h
  generalize skipStage e b ev.x ev.y ev.dtime = s at *
  dsimp only at h
  by_cases h1 : s.2.2 = true
  · rw [if_pos h1] at h
    exact .inl ⟨h1, (Except.ok.inj h).symm⟩
  · rw [if_neg h1] at h
    have h1' : s.2.2 = false := by simpa using h1
    by_cases h2 : s.2.1 > 5 ∨ b.resetRequested = true
    · rw [if_pos h2] at h
      obtain ⟨b', h3, h⟩ := bind_ok h
      exact .inr (.inl ⟨h1', h2, b', h3, (Except.ok.inj h).symm⟩)
    · rw [if_neg h2] at h
      exact .inr (.inr ⟨h1', h2, h⟩)

/-- Starting over. -/
theorem startOver_eq [FloorRing K] {e : Env K R σ} {b b' : Brush K R} {x y p : K} (h : startOver e b x y p = .ok b') :
    ∃ bk, resetBuckets b.buckets = .ok bk ∧ b' = { b with
      skip := 0, skipX := 0, skipY := 0, skippedTime := 0, buckets := bk, resetRequested := false
      random := (e.next b.rng).1, rng := (e.next b.rng).2
      st := { State.cleared with x := x, y := y, pressure := p, actualX := x, actualY := y, stroke := 1 } } := by
  unfold startOver at h
  obtain ⟨b1, h1, h⟩ := bind_ok h
  unfold brushReset at h1
  obtain ⟨bk, h2, h1⟩ := bind_ok h1
  refine ⟨bk, h2, ?_⟩
  rw [← Except.ok.inj h, ← Except.ok.inj h1]

/-- The cursor changes only the noise state and the generator. -/
theorem cursor_eq [FloorRing K] (e : Env K R σ) (b : Brush K R) (x y dt : K) :
    (cursor e b x y dt).2.2 = { b with
      skip := (cursor e b x y dt).2.2.skip, skipX := (cursor e b x y dt).2.2.skipX
      skipY := (cursor e b x y dt).2.2.skipY, rng := (cursor e b x y dt).2.2.rng } := by
  unfold cursor
  dsimp only
  split_ifs <;> rfl

theorem skipStage_eq (e : Env K R σ) (b : Brush K R) (x y dt : K) :
    (skipStage e b x y dt).1 = { b with
      skip := (skipStage e b x y dt).1.skip, skipX := (skipStage e b x y dt).1.skipX
      skipY := (skipStage e b x y dt).1.skipY, skippedTime := (skipStage e b x y dt).1.skippedTime } := by
  unfold skipStage
  dsimp only
  split_ifs <;> rfl

end Verif.Engine
