import Verif.Lemmas.EngineSession
import Verif.Model.Painting

/-!
# The engine knows the surface through drawing and sampling only

If one surface can be seen in another, so that drawing and sampling give the same answers, then sessions on the one can be
seen in sessions on the other.
-/

namespace Verif.Engine
open Verif.Mask Verif.Color Verif.Spectral Verif.Map

section
variable {K R σ τ : Type} [Field K] [LinearOrder K] [IsStrictOrderedRing K] [FloorRing K]

/-- `φ` shows the surface of `e` in the surface of `e.on d g`. -/
structure Shows (e : Env K R σ) (d : τ → Dab.Args K → Bool × τ) (g : τ → Int → Int → K → K → Rgba K × τ) (φ : τ → σ) :
    Prop where
  draw : ∀ s a, e.draw (φ s) a = ((d s a).1, φ (d s a).2)
  getColor : ∀ s x y r p, e.getColor (φ s) x y r p = ((g s x y r p).1, φ (g s x y r p).2)

/-- Show a result. -/
def see (φ : τ → σ) (r : Except Fault (Bool × Brush K R × τ)) : Except Fault (Bool × Brush K R × σ) :=
  r.map fun p => (p.1, p.2.1, φ p.2.2)

variable {e : Env K R σ} {d : τ → Dab.Args K → Bool × τ} {g : τ → Int → Int → K → K → Rgba K × τ} {φ : τ → σ}

omit [IsStrictOrderedRing K] [FloorRing K] in
theorem updateSmudge_see (H : Shows e d g φ) (b : Brush K R) (s : τ) (v : Bucket K) (px py : Int) (radius : K) :
    updateSmudge e b (φ s) v px py radius =
      ((updateSmudge (e.on d g) b s v px py radius).1, (updateSmudge (e.on d g) b s v px py radius).2.1,
        φ (updateSmudge (e.on d g) b s v px py radius).2.2.1, (updateSmudge (e.on d g) b s v px py radius).2.2.2) := by
  unfold updateSmudge
  dsimp only [Env.on]
  simp only [H.getColor]
  generalize g s px py _ _ = q
  by_cases hr : v.recentness * maxC (1 / 100) (b.vals sSmudgeLength) <
      minC 1 (e.pow (1 / 2 * maxC (1 / 100) (b.vals sSmudgeLength)) (b.vals sSmudgeLengthLog) + 1 / 10 ^ 16)
  · simp only [hr, if_true, true_and]
    by_cases h1 : b.vals sSmudgeTransparency > 0 ∧ q.1.a < b.vals sSmudgeTransparency ∨
      b.vals sSmudgeTransparency < 0 ∧ q.1.a > -b.vals sSmudgeTransparency
    · simp only [h1, if_true]
    · simp only [h1, if_false]
      cases legacySmudge b
      · by_cases h2 : q.1.a > 1 / 1000 * 10
        · simp only [h2, if_true, Bool.false_eq_true, if_false]
        · simp only [h2, Bool.false_eq_true, if_false]
      · simp only [if_true]
  · simp only [hr, if_false, false_and]
    cases legacySmudge b
    · by_cases h2 : v.prevA > 1 / 1000 * 10
      · simp only [h2, if_true, Bool.false_eq_true, if_false]
      · simp only [h2, Bool.false_eq_true, if_false]
    · simp only [if_true]

omit [IsStrictOrderedRing K] in
theorem smudgeStage_see (H : Shows e d g φ) (b : Brush K R) (s : τ) (x y radius : K) :
    smudgeStage e b (φ s) x y radius = see φ (smudgeStage (e.on d g) b s x y radius) := by
  unfold smudgeStage
  by_cases q : b.vals sSmudgeLength < 1 ∧ (b.vals sSmudge ≠ 0 ∨ isConstant (b.settings sSmudge) = false)
  · rw [if_pos q, if_pos q]
    dsimp only
    cases loadSmudge (fetchSmudge b).2 (fetchSmudge b).1 with
    | error f => rfl
    | ok v =>
      show (Dab.toInt (x + 1 / 2) >>= fun px => _) = see φ (Dab.toInt (x + 1 / 2) >>= fun px => _)
      cases Dab.toInt (x + 1 / 2) with
      | error f => rfl
      | ok px =>
        show (Dab.toInt (y + 1 / 2) >>= fun py => _) = see φ (Dab.toInt (y + 1 / 2) >>= fun py => _)
        cases Dab.toInt (y + 1 / 2) with
        | error f => rfl
        | ok py =>
          have k := updateSmudge_see H (fetchSmudge b).2 s v px py radius
          show (storeSmudge (fetchSmudge b).2 (updateSmudge e (fetchSmudge b).2 (φ s) v px py radius).2.1 (fetchSmudge b).1
              >>= fun b => _) =
            see φ (storeSmudge (fetchSmudge b).2 (updateSmudge (e.on d g) (fetchSmudge b).2 s v px py radius).2.1
              (fetchSmudge b).1 >>= fun b => _)
          rw [k]
          dsimp only
          cases storeSmudge (fetchSmudge b).2 (updateSmudge (e.on d g) (fetchSmudge b).2 s v px py radius).2.1
              (fetchSmudge b).1 with
          | error f => rfl
          | ok b => rfl
  · rw [if_neg q, if_neg q]
    rfl

omit [IsStrictOrderedRing K] in
theorem drawDab_see (H : Shows e d g φ) (b : Brush K R) (s : τ) (lin : Bool) :
    drawDab e b (φ s) lin = see φ (drawDab (e.on d g) b s lin) := by
  unfold drawDab
  show (dabOpacity e b >>= fun o => _) = see φ (dabOpacity e b >>= fun o => _)
  cases dabOpacity e b with
  | error f => rfl
  | ok o =>
    show (dabPosition e b >>= fun o => _) = see φ (dabPosition e b >>= fun o => _)
    cases dabPosition e b with
    | error f => rfl
    | ok pos =>
      show (smudgeStage e (dabRadius e pos.2.2 o).2.2 (φ s) pos.1 pos.2.1 (dabRadius e pos.2.2 o).1 >>= fun sm => _) =
        see φ (smudgeStage (e.on d g) (dabRadius e pos.2.2 o).2.2 s pos.1 pos.2.1 (dabRadius e pos.2.2 o).1 >>= fun sm => _)
      rw [smudgeStage_see H]
      cases smudgeStage (e.on d g) (dabRadius e pos.2.2 o).2.2 s pos.1 pos.2.1 (dabRadius e pos.2.2 o).1 with
      | error f => rfl
      | ok sm =>
        obtain ⟨stop, b1, s1⟩ := sm
        cases stop with
        | true => rfl
        | false =>
          show (smudgeColor e b1 _ >>= fun col => _) = see φ (smudgeColor e b1 _ >>= fun col => _)
          cases smudgeColor e b1 (hsvToRgb ⟨b.baseval sColorH, b.baseval sColorS, b.baseval sColorV⟩) with
          | error f => rfl
          | ok col =>
            show Except.ok _ = Except.ok _
            rw [H.draw]
            rfl

/-- The same for the dab loop. -/
def seeLoop (φ : τ → σ) (l : Loop K R τ) : Loop K R σ :=
  { b := l.b, surf := φ l.surf, moved := l.moved, todo := l.todo, dtimeLeft := l.dtimeLeft, painted := l.painted }

omit [IsStrictOrderedRing K] in
theorem dabStep_see (H : Shows e d g φ) (ev : Event K) (x y : K) (l : Loop K R τ) :
    dabStep e ev x y (seeLoop φ l) = (dabStep (e.on d g) ev x y l).map (seeLoop φ) := by
  unfold dabStep
  dsimp only
  by_cases q : l.todo = 0
  · rw [if_pos q, if_pos (show (seeLoop φ l).todo = 0 from q)]; rfl
  · rw [if_neg q, if_neg (show ¬ (seeLoop φ l).todo = 0 from q)]
    show (update e l.b (stepTo l.b.st ev x y (if l.moved > 0 then 1 - l.moved else 1)
        ((if l.moved > 0 then 1 - l.moved else 1) / l.todo) l.dtimeLeft) >>= fun b => _) =
      (update e l.b (stepTo l.b.st ev x y (if l.moved > 0 then 1 - l.moved else 1)
        ((if l.moved > 0 then 1 - l.moved else 1) / l.todo) l.dtimeLeft) >>= fun b => _).map _
    cases update e l.b (stepTo l.b.st ev x y (if l.moved > 0 then 1 - l.moved else 1)
        ((if l.moved > 0 then 1 - l.moved else 1) / l.todo) l.dtimeLeft) with
    | error f => rfl
    | ok b =>
      show (drawDab e { b with st := { b.st with flip := b.st.flip * -1 } } (φ l.surf) ev.linear >>= fun d => _) =
        (drawDab (e.on d g) { b with st := { b.st with flip := b.st.flip * -1 } } l.surf ev.linear >>= fun d => _).map _
      rw [drawDab_see H]
      cases drawDab (e.on d g) { b with st := { b.st with flip := b.st.flip * -1 } } l.surf ev.linear with
      | error f => rfl
      | ok p => rfl

omit [IsStrictOrderedRing K] in
theorem dabLoop_see (H : Shows e d g φ) (ev : Event K) (x y : K) (fuel : Nat) : ∀ l : Loop K R τ,
    dabLoop e ev x y fuel (seeLoop φ l) = (dabLoop (e.on d g) ev x y fuel l).map (seeLoop φ) := by
  induction fuel with
  | zero =>
    intro l
    unfold dabLoop
    show (if l.moved + l.todo ≥ 1 then _ else _) = _
    by_cases q : l.moved + l.todo ≥ 1
    · rw [if_pos q, if_pos q]; rfl
    · rw [if_neg q, if_neg q]; rfl
  | succ fuel ih =>
    intro l
    unfold dabLoop
    show (if l.moved + l.todo ≥ 1 then _ else _) = _
    by_cases q : l.moved + l.todo ≥ 1
    · rw [if_pos q, if_pos q, dabStep_see H]
      cases dabStep (e.on d g) ev x y l with
      | error f => rfl
      | ok l1 => exact ih l1
    · rw [if_neg q, if_neg q]; rfl

omit [IsStrictOrderedRing K] in
theorem moveTo_see (H : Shows e d g φ) (fuel : Nat) (b : Brush K R) (s : τ) (ev : Event K) (x y dt : K) :
    moveTo e fuel b (φ s) ev x y dt = see φ (moveTo (e.on d g) fuel b s ev x y dt) := by
  unfold moveTo
  dsimp only
  have k := dabLoop_see H ev x y fuel ⟨(countDabs e b x y dt).2, s, b.st.partialDabs, (countDabs e b x y dt).1, dt, .unknown⟩
  show (dabLoop e ev x y fuel (seeLoop φ
      ⟨(countDabs e b x y dt).2, s, b.st.partialDabs, (countDabs e b x y dt).1, dt, .unknown⟩) >>= fun l => _) =
    see φ (dabLoop (e.on d g) ev x y fuel
      ⟨(countDabs e b x y dt).2, s, b.st.partialDabs, (countDabs e b x y dt).1, dt, .unknown⟩ >>= fun l => _)
  rw [k]
  cases dabLoop (e.on d g) ev x y fuel
      ⟨(countDabs e b x y dt).2, s, b.st.partialDabs, (countDabs e b x y dt).1, dt, .unknown⟩ with
  | error f => rfl
  | ok l =>
    show (update e l.b (stepTo l.b.st ev x y l.todo 1 l.dtimeLeft) >>= fun b => _) =
      see φ (update e l.b (stepTo l.b.st ev x y l.todo 1 l.dtimeLeft) >>= fun b => _)
    cases update e l.b (stepTo l.b.st ev x y l.todo 1 l.dtimeLeft) with
    | error f => rfl
    | ok b => rfl

omit [IsStrictOrderedRing K] in
theorem strokeEvent_see (H : Shows e d g φ) (fuel : Nat) (b : Brush K R) (s : τ) (ev : Event K) :
    strokeEvent e fuel b (φ s) ev = see φ (strokeEvent (e.on d g) fuel b s ev) := by
  unfold strokeEvent
  dsimp only
  have k1 : skipStage (e.on d g) b ev.x ev.y ev.dtime = skipStage e b ev.x ev.y ev.dtime := rfl
  rw [k1]
  generalize skipStage e b ev.x ev.y ev.dtime = sk
  by_cases q : sk.2.2 = true
  · rw [if_pos q, if_pos q]; rfl
  · rw [if_neg q, if_neg q]
    have k2 : cursor (e.on d g) sk.1 ev.x ev.y sk.2.1 = cursor e sk.1 ev.x ev.y sk.2.1 := rfl
    rw [k2]
    generalize cursor e sk.1 ev.x ev.y sk.2.1 = c
    by_cases q2 : sk.2.1 > 5 ∨ b.resetRequested = true
    · rw [if_pos q2, if_pos q2]
      show (startOver e c.2.2 c.1 c.2.1 ev.pressure >>= fun b => _) =
        see φ (startOver e c.2.2 c.1 c.2.1 ev.pressure >>= fun b => _)
      cases startOver e c.2.2 c.1 c.2.1 ev.pressure <;> rfl
    · rw [if_neg q2, if_neg q2]
      exact moveTo_see H fuel _ _ _ _ _ _

omit [IsStrictOrderedRing K] in
theorem strokeTo_see (H : Shows e d g φ) (fuel : Nat) (b : Brush K R) (s : τ) (m : Motion K) :
    strokeTo e fuel b (φ s) m = see φ (strokeTo (e.on d g) fuel b s m) := by
  unfold strokeTo
  show (sanitise e m >>= fun ev => _) = see φ (sanitise e m >>= fun ev => _)
  cases sanitise e m with
  | error f => rfl
  | ok ev =>
    show (if ev.dtime > 1 / 10 ∧ ev.pressure ≠ 0 ∧ b.st.pressure = 0 then _ else _) =
      see φ (if ev.dtime > 1 / 10 ∧ ev.pressure ≠ 0 ∧ b.st.pressure = 0 then _ else _)
    by_cases q : ev.dtime > 1 / 10 ∧ ev.pressure ≠ 0 ∧ b.st.pressure = 0
    · rw [if_pos q, if_pos q]
      show (sanitise e (workaroundMotion ev) >>= fun i => _) = see φ (sanitise e (workaroundMotion ev) >>= fun i => _)
      cases sanitise e (workaroundMotion ev) with
      | error f => rfl
      | ok i =>
        show (strokeEvent e fuel b (φ s) i >>= fun r => _) = see φ (strokeEvent (e.on d g) fuel b s i >>= fun r => _)
        rw [strokeEvent_see H]
        cases strokeEvent (e.on d g) fuel b s i with
        | error f => rfl
        | ok r => exact strokeEvent_see H fuel _ _ _
    · rw [if_neg q, if_neg q]
      exact strokeEvent_see H fuel _ _ _

omit [IsStrictOrderedRing K] in
/-- A session on `φ s` is what `φ` shows of the session on `s`. -/
theorem strokes_see (H : Shows e d g φ) (fuel : Nat) (ms : List (Motion K)) : ∀ (b : Brush K R) (s : τ),
    strokes e fuel b (φ s) ms = (strokes (e.on d g) fuel b s ms).map (fun r => (r.1, φ r.2)) := by
  induction ms with
  | nil => intro b s; rfl
  | cons m ms ih =>
    intro b s
    unfold strokes
    rw [strokeTo_see H]
    cases strokeTo (e.on d g) fuel b s m with
    | error f => rfl
    | ok r => exact ih _ _

omit [IsStrictOrderedRing K] in
/-- Recording the dabs of a session changes nothing else. -/
theorem strokes_recorded (e : Env K R σ) (fuel : Nat) (ms : List (Motion K)) (b : Brush K R) (s : σ)
    (l : List (Dab.Args K)) {r : Brush K R × σ} (h : strokes e fuel b s ms = .ok r) :
    ∃ l', strokes (recordDabs e) fuel b (s, l) ms = .ok (r.1, (r.2, l')) := by
  have H : Shows e (recordDabs e).draw (recordDabs e).getColor Prod.fst := ⟨fun _ _ => rfl, fun _ _ _ _ _ => rfl⟩
  have k := strokes_see H fuel ms b (s, l)
  have e1 : e.on (recordDabs e).draw (recordDabs e).getColor = recordDabs e := rfl
  rw [e1, h] at k
  cases hr : strokes (recordDabs e) fuel b (s, l) ms with
  | error f => rw [hr] at k; cases k
  | ok q =>
    rw [hr] at k
    have := Except.ok.inj k
    refine ⟨q.2.2, ?_⟩
    rw [this]

end
end Verif.Engine
