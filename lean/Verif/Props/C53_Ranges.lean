import Verif.Props.C43_Motion
import Verif.Props.C44_Input
import Verif.Props.C33_Colors
import Mathlib.Tactic.IntervalCases

/-!
# C53: the ranges of the inputs and of the dabs

`brushsettings.json` gives a hard minimum and maximum for most inputs. Of the eighteen inputs fifteen keep to them in
every step of every session. Barrel rotation does not: it is documented as -180 to 180 and runs from 0 to 360. View zoom
and base brush radius are passed on as they come.
-/

namespace Verif.Engine
open Verif.Mask Verif.Color Verif.Spectral Verif.Map

variable {K R σ : Type} [Field K] [LinearOrder K] [FloorRing K]

/-! ### What is handed to the dynamics -/

/-- The steps of the dab loop: the brush before each call of `update_states_and_setting_values`, and its arguments. -/
def loopUpdates (e : Env K R σ) (ev : Event K) (x y : K) : Nat → Loop K R σ → List (Brush K R × Step K)
  | 0, _ => []
  | fuel + 1, l =>
    if l.moved + l.todo ≥ 1 then
      let ddab := if l.moved > 0 then 1 - l.moved else 1
      (l.b, stepTo l.b.st ev x y ddab (ddab / l.todo) l.dtimeLeft) ::
        match dabStep e ev x y l with
        | .ok l' => loopUpdates e ev x y fuel l'
        | .error _ => []
    else []

/-- The steps of a movement: those of the loop and the last one. -/
def moveUpdates (e : Env K R σ) (fuel : Nat) (b : Brush K R) (surf : σ) (ev : Event K) (x y dt : K) :
    List (Brush K R × Step K) :=
  let c := countDabs e b x y dt
  let l : Loop K R σ :=
    { b := c.2, surf := surf, moved := b.st.partialDabs, todo := c.1, dtimeLeft := dt, painted := .unknown }
  loopUpdates e ev x y fuel l ++
    match dabLoop e ev x y fuel l with
    | .ok l => [(l.b, stepTo l.b.st ev x y l.todo 1 l.dtimeLeft)]
    | .error _ => []

def eventUpdates (e : Env K R σ) (fuel : Nat) (b : Brush K R) (surf : σ) (ev : Event K) : List (Brush K R × Step K) :=
  let s := skipStage e b ev.x ev.y ev.dtime
  if s.2.2 then []
  else
    let c := cursor e s.1 ev.x ev.y s.2.1
    if s.2.1 > 5 ∨ b.resetRequested = true then []
    else moveUpdates e fuel c.2.2 surf ev c.1 c.2.1 s.2.1

def strokeUpdates (e : Env K R σ) (fuel : Nat) (b : Brush K R) (surf : σ) (m : Motion K) : List (Brush K R × Step K) :=
  match sanitise e m with
  | .error _ => []
  | .ok ev =>
    if ev.dtime > 1 / 10 ∧ ev.pressure ≠ 0 ∧ b.st.pressure = 0 then
      match sanitise e (workaroundMotion ev) with
      | .error _ => []
      | .ok inner =>
        eventUpdates e fuel b surf inner ++
          match strokeEvent e fuel b surf inner with
          | .error _ => []
          | .ok r => eventUpdates e fuel r.2.1 r.2.2 { ev with dtime := 1 / 10000 }
    else eventUpdates e fuel b surf ev

/-- All steps of a session; also those of a call that ends in a fault. -/
def sessionUpdates (e : Env K R σ) (fuel : Nat) : Brush K R → σ → List (Motion K) → List (Brush K R × Step K)
  | _, _, [] => []
  | b, surf, m :: ms =>
    strokeUpdates e fuel b surf m ++
      match strokeTo e fuel b surf m with
      | .error _ => []
      | .ok r => sessionUpdates e fuel r.2.1 r.2.2 ms

/-- The values of the inputs in one step. -/
def handed (e : Env K R σ) (u : Brush K R × Step K) : Inputs K := inputsOf e u.1 (moveStates e u.1 u.2)

omit [FloorRing K] in
/-- The settings after a step are computed from exactly these. -/
theorem update_uses_handed [FloorRing K] {e : Env K R σ} {b b' : Brush K R} {s : Step K} (h : update e b s = .ok b') :
    ∀ id, b'.vals id = calculate (b.settings id) (handed e (b, s)).get := by
  intro id
  rw [update_eq h]
  rfl

/-- `v` is in the documented range of the input `id`. -/
def Documented (id : Nat) (v : K) : Prop :=
  ∃ info, Settings.inputs[id]? = some info ∧ (∀ q : ℚ, info.hardMin = some q → (q : K) ≤ v) ∧
    ∀ q : ℚ, info.hardMax = some q → v ≤ (q : K)

/-! ### The invariant -/

structure TameState (st : State K) : Prop where
  pressure : 0 ≤ st.pressure
  stroke : 0 ≤ st.stroke
  decl0 : 0 ≤ st.declination
  decl1 : st.declination ≤ 90
  declX0 : -90 ≤ st.declinationX
  declX1 : st.declinationX ≤ 90
  declY0 : -90 ≤ st.declinationY
  declY1 : st.declinationY ≤ 90

structure TameEvent (ev : Event K) : Prop where
  pressure : 0 ≤ ev.pressure
  decl0 : 0 ≤ ev.declination
  decl1 : ev.declination ≤ 90
  declX0 : -90 ≤ ev.declinationX
  declX1 : ev.declinationX ≤ 90
  declY0 : -90 ≤ ev.declinationY
  declY1 : ev.declinationY ≤ 90

/-- What holds of a brush between events. -/
structure Tame (b : Brush K R) : Prop where
  pending : PendingOk b
  state : TameState b.st
  random0 : 0 ≤ b.random
  random1 : b.random ≤ 1

section
variable [IsStrictOrderedRing K]

omit [FloorRing K] in
theorem interp {lo hi a b f : K} (a0 : lo ≤ a) (a1 : a ≤ hi) (b0 : lo ≤ b) (b1 : b ≤ hi) (f0 : 0 ≤ f) (f1 : f ≤ 1) :
    lo ≤ a + f * (b - a) ∧ a + f * (b - a) ≤ hi := by
  have e : a + f * (b - a) = (1 - f) * a + f * b := by ring
  rw [e]
  have g0 : 0 ≤ 1 - f := by linarith
  have p1 := mul_le_mul_of_nonneg_left a0 g0
  have p2 := mul_le_mul_of_nonneg_left b0 f0
  have p3 := mul_le_mul_of_nonneg_left a1 g0
  have p4 := mul_le_mul_of_nonneg_left b1 f0
  constructor
  · have : (1 - f) * lo + f * lo = lo := by ring
    linarith
  · have : (1 - f) * hi + f * hi = hi := by ring
    linarith

theorem moveStates_tame {e : Env K R σ} {b : Brush K R} {ev : Event K} (hb : TameState b.st) (he : TameEvent ev)
    {x y d f t : K} (f0 : 0 ≤ f) (f1 : f ≤ 1) : TameState (moveStates e b (stepTo b.st ev x y d f t)) where
  pressure := by
    show 0 ≤ if b.st.pressure + f * (ev.pressure - b.st.pressure) ≤ 0 then (0 : K)
      else b.st.pressure + f * (ev.pressure - b.st.pressure)
    by_cases h : b.st.pressure + f * (ev.pressure - b.st.pressure) ≤ 0
    · rw [if_pos h]
    · rw [if_neg h]; exact (not_le.mp h).le
  stroke := by
    simp only [moveStates]
    split_ifs <;> first | exact le_refl _ | exact hb.stroke
  decl0 := (interp hb.decl0 hb.decl1 he.decl0 he.decl1 f0 f1).1
  decl1 := (interp hb.decl0 hb.decl1 he.decl0 he.decl1 f0 f1).2
  declX0 := (interp hb.declX0 hb.declX1 he.declX0 he.declX1 f0 f1).1
  declX1 := (interp hb.declX0 hb.declX1 he.declX0 he.declX1 f0 f1).2
  declY0 := (interp hb.declY0 hb.declY1 he.declY0 he.declY1 f0 f1).1
  declY1 := (interp hb.declY0 hb.declY1 he.declY0 he.declY1 f0 f1).2

theorem fmod_nonneg {a b : K} (ha : 0 ≤ a) (hb : 0 < b) : 0 ≤ fmod a b ∧ fmod a b < b := by
  unfold fmod
  rw [if_pos ha]
  have := modArith_spec a b hb
  exact ⟨this.1, this.2.1⟩

theorem strokeLength_nonneg (e : Env K R σ) (vals : Nat → K) (s d : K) : 0 ≤ strokeLength e vals s d := by
  have m0 : ∀ t : K, 0 ≤ maxC 0 t := by
    intro t; unfold maxC; split_ifs with h
    · exact le_refl _
    · exact not_lt.mp h
  unfold strokeLength
  dsimp only
  split_ifs
  · exact zero_le_one
  · exact (fmod_nonneg (m0 _) (by linarith [m0 (vals sStrokeHoldtime)])).1
  · exact m0 _

theorem update_tame {e : Env K R σ} {b b' : Brush K R} {ev : Event K} (hb : TameState b.st) (he : TameEvent ev)
    {x y d f t : K} (f0 : 0 ≤ f) (f1 : f ≤ 1) (h : update e b (stepTo b.st ev x y d f t) = .ok b') :
    TameState b'.st := by
  have k := moveStates_tame (e := e) hb he (x := x) (y := y) (d := d) (t := t) f0 f1
  rw [update_eq h]
  exact ⟨k.pressure, strokeLength_nonneg _ _ _ _, k.decl0, k.decl1, k.declX0, k.declX1, k.declY0, k.declY1⟩

/-! ### The inputs of one step -/

omit [FloorRing K] in
theorem minC_one {a : K} (ha : 0 ≤ a) : 0 ≤ minC a 1 ∧ minC a 1 ≤ 1 := by
  unfold minC
  split_ifs with h
  · exact ⟨ha, h.le⟩
  · exact ⟨zero_le_one, le_refl _⟩

/-- What the inputs are in a step that starts from a tame state. -/
theorem inputs_in_range {e : Env K R σ} (L : Laws e) {b : Brush K R} (r0 : 0 ≤ b.random) (r1 : b.random ≤ 1)
    {st : State K} (ht : TameState st) (v0 : -180 ≤ st.viewrotation) (id : Nat) (hid : id < Settings.inputs.length)
    (n1 : id ≠ iViewzoom) (n2 : id ≠ iBrushRadius) (n3 : id ≠ iBarrelRotation) :
    Documented id ((inputsOf e b st).get id) := by
  have pm : ∀ (a N : K), 0 < N → 0 ≤ modArith a N ∧ modArith a N ≤ N := fun a N h =>
    ⟨(modArith_spec a N h).1, (modArith_spec a N h).2.1.le⟩
  have d360 := L.atan2_range st.directionAngleDy st.directionAngleDx
  have c256 : ∀ a : K, 0 ≤ clampK a 0 256 ∧ clampK a 0 256 ≤ 256 := fun a => clampK_ge (by norm_num)
  have hid' : id < 18 := hid
  interval_cases id
  · show Documented 0 (st.pressure * e.exp (b.baseval sPressureGainLog))
    refine ⟨_, rfl, ?_, ?_⟩ <;> rintro q ⟨⟩
    have : 0 ≤ st.pressure * e.exp (b.baseval sPressureGainLog) := mul_nonneg ht.pressure (L.exp_pos _).le
    simpa using this
  · show Documented 1 (b.random)
    refine ⟨_, rfl, ?_, ?_⟩ <;> rintro q ⟨⟩
    · simpa using r0
    · simpa using r1
  · show Documented 2 (minC st.stroke 1)
    refine ⟨_, rfl, ?_, ?_⟩ <;> rintro q ⟨⟩
    · simpa using (minC_one ht.stroke).1
    · simpa using (minC_one ht.stroke).2
  · show Documented 3 (modArith (e.atan2 st.directionDy st.directionDx + st.viewrotation + 180) 180)
    refine ⟨_, rfl, ?_, ?_⟩ <;> rintro q ⟨⟩
    · simpa using (pm _ 180 (by norm_num)).1
    · simpa using (pm _ 180 (by norm_num)).2
  · show Documented 4 (st.declination)
    refine ⟨_, rfl, ?_, ?_⟩ <;> rintro q ⟨⟩
    · simpa using ht.decl0
    · simpa using ht.decl1
  · show Documented 5 (modArith (st.ascension + st.viewrotation + 180) 360 - 180)
    have := pm (st.ascension + st.viewrotation + 180) 360 (by norm_num)
    refine ⟨_, rfl, ?_, ?_⟩ <;> rintro q ⟨⟩
    · have h : (-180 : K) ≤ modArith (st.ascension + st.viewrotation + 180) 360 - 180 := by linarith
      refine le_trans (le_of_eq ?_) h; norm_num
    · have h : modArith (st.ascension + st.viewrotation + 180) 360 - 180 ≤ (180 : K) := by linarith
      refine le_trans h (le_of_eq ?_); norm_num
  · refine ⟨_, rfl, ?_, ?_⟩ <;> rintro q ⟨⟩
  · refine ⟨_, rfl, ?_, ?_⟩ <;> rintro q ⟨⟩
  · refine ⟨_, rfl, ?_, ?_⟩ <;> rintro q ⟨⟩
  · show Documented 9 (fmod (e.atan2 st.directionAngleDy st.directionAngleDx + st.viewrotation + 360) 360)
    have := fmod_nonneg (a := e.atan2 st.directionAngleDy st.directionAngleDx + st.viewrotation + 360) (b := 360)
      (by linarith) (by norm_num)
    refine ⟨_, rfl, ?_, ?_⟩ <;> rintro q ⟨⟩
    · simpa using this.1
    · simpa using this.2.le
  · show Documented 10 (smallestDiff st.ascension (modArith (e.atan2 st.directionAngleDy st.directionAngleDx + 90) 360))
    have := smallestDiff_spec st.ascension
      (modArith (e.atan2 st.directionAngleDy st.directionAngleDx + 90) 360)
    refine ⟨_, rfl, ?_, ?_⟩ <;> rintro q ⟨⟩
    · simpa using this.1
    · simpa using this.2.1.le
  · show Documented 11 (st.declinationX)
    refine ⟨_, rfl, ?_, ?_⟩ <;> rintro q ⟨⟩
    · simpa using ht.declX0
    · simpa using ht.declX1
  · show Documented 12 (st.declinationY)
    refine ⟨_, rfl, ?_, ?_⟩ <;> rintro q ⟨⟩
    · simpa using ht.declY0
    · simpa using ht.declY1
  · show Documented 13 (clampK st.gridmapX 0 256)
    refine ⟨_, rfl, ?_, ?_⟩ <;> rintro q ⟨⟩
    · simpa using (c256 _).1
    · simpa using (c256 _).2
  · show Documented 14 (clampK st.gridmapY 0 256)
    refine ⟨_, rfl, ?_, ?_⟩ <;> rintro q ⟨⟩
    · simpa using (c256 _).1
    · simpa using (c256 _).2
  · exact absurd rfl n1
  · exact absurd rfl n2
  · exact absurd rfl n3

/-! ### Sessions -/

/-- What holds in the dab loop. -/
structure TameLoop (l : Loop K R σ) : Prop where
  state : TameState l.b.st
  random0 : 0 ≤ l.b.random
  random1 : l.b.random ≤ 1
  moved0 : 0 ≤ l.moved
  moved1 : l.moved < 1
  todo0 : 0 ≤ l.todo

/-- A step that keeps the inputs in range: `u` comes from an interpolation with a fraction between 0 and 1. -/
def Proper (u : Brush K R × Step K) : Prop :=
  TameState u.1.st ∧ 0 ≤ u.1.random ∧ u.1.random ≤ 1 ∧
    ∃ (ev : Event K) (x y d f t : K), TameEvent ev ∧ 0 ≤ f ∧ f ≤ 1 ∧ u.2 = stepTo u.1.st ev x y d f t

theorem tameState_radius {st : State K} (h : TameState st) (r : K) : TameState { st with actualRadius := r } :=
  ⟨h.pressure, h.stroke, h.decl0, h.decl1, h.declX0, h.declX1, h.declY0, h.declY1⟩

theorem loop_fraction {l : Loop K R σ} (hl : TameLoop l) (hc : l.moved + l.todo ≥ 1) :
    0 ≤ (if l.moved > 0 then 1 - l.moved else 1) / l.todo ∧ (if l.moved > 0 then 1 - l.moved else 1) / l.todo ≤ 1 := by
  have hz : l.todo ≠ 0 := by
    intro hz; rw [hz] at hc; have := hl.moved1; linarith
  have := fraction_range hl.moved0 hl.moved1 hz hl.todo0 hc
  exact ⟨this.2.1, this.2.2.1⟩

theorem dabStep_tame {e : Env K R σ} (L : Laws e) {ev : Event K} (he : TameEvent ev) {x y : K} {l l' : Loop K R σ}
    (hl : TameLoop l) (hc : l.moved + l.todo ≥ 1) (h : dabStep e ev x y l = .ok l') : TameLoop l' := by
  obtain ⟨hz, b1, p, b2, hu, hd, h2, e1⟩ := dabStep_eq h
  obtain ⟨f0, f1⟩ := loop_fraction hl hc
  have k1 := update_tame hl.state he f0 f1 hu
  have k2 : TameState b2.st := by
    rw [h2]
    simp only
    rw [(drawDab_frame hd).st]
    exact ⟨k1.pressure, k1.stroke, k1.decl0, k1.decl1, k1.declX0, k1.declX1, k1.declY0, k1.declY1⟩
  have hr := L.next_range p.2.1.rng
  have er : b2.random = (e.next p.2.1.rng).1 := by rw [h2]
  rw [e1]
  refine ⟨?_, ?_, ?_, ?_, ?_, countDabs_nonneg _ _ _ _ _⟩
  · simp only
    rw [countDabs_st]
    exact tameState_radius k2 _
  · simp only
    rw [countDabs_st]
    simp only
    rw [er]; exact hr.1
  · simp only
    rw [countDabs_st]
    simp only
    rw [er]; exact hr.2.le
  · simp only
    split_ifs
    · exact le_refl _
    · exact hl.moved0
  · simp only
    split_ifs
    · exact zero_lt_one
    · exact hl.moved1

theorem loopUpdates_proper {e : Env K R σ} (L : Laws e) {ev : Event K} (he : TameEvent ev) {x y : K} (fuel : Nat) :
    ∀ l : Loop K R σ, TameLoop l → ∀ u ∈ loopUpdates e ev x y fuel l, Proper u := by
  induction fuel with
  | zero => intro l _ u hu; cases hu
  | succ fuel ih =>
    intro l hl u hu
    unfold loopUpdates at hu
    by_cases hc : l.moved + l.todo ≥ 1
    · rw [if_pos hc] at hu
      dsimp only at hu
      rcases List.mem_cons.mp hu with h | h
      · obtain ⟨f0, f1⟩ := loop_fraction hl hc
        rw [h]
        exact ⟨hl.state, hl.random0, hl.random1, ev, x, y, _, _, _, he, f0, f1, rfl⟩
      · cases hs : dabStep e ev x y l with
        | error f => rw [hs] at h; cases h
        | ok l' => rw [hs] at h; exact ih l' (dabStep_tame L he hl hc hs) u h
    · rw [if_neg hc] at hu; cases hu

theorem startLoop_tame {e : Env K R σ} {b : Brush K R} (hb : Tame b) (surf : σ) (x y dt : K) :
    TameLoop (σ := σ) { b := (countDabs e b x y dt).2, surf := surf, moved := b.st.partialDabs
                        todo := (countDabs e b x y dt).1, dtimeLeft := dt, painted := .unknown } := by
  refine ⟨?_, ?_, ?_, hb.pending.1, hb.pending.2, countDabs_nonneg _ _ _ _ _⟩
  · simp only
    rw [countDabs_st]
    exact tameState_radius hb.state _
  · simp only
    rw [countDabs_st]
    exact hb.random0
  · simp only
    rw [countDabs_st]
    exact hb.random1

theorem moveUpdates_proper {e : Env K R σ} (L : Laws e) {ev : Event K} (he : TameEvent ev) {fuel : Nat} {b : Brush K R}
    (hb : Tame b) {surf : σ} {x y dt : K} : ∀ u ∈ moveUpdates e fuel b surf ev x y dt, Proper u := by
  intro u hu
  unfold moveUpdates at hu
  dsimp only at hu
  rcases List.mem_append.mp hu with h | h
  · exact loopUpdates_proper L he fuel _ (startLoop_tame hb surf x y dt) u h
  · cases hl : dabLoop e ev x y fuel
      { b := (countDabs e b x y dt).2, surf := surf, moved := b.st.partialDabs
        todo := (countDabs e b x y dt).1, dtimeLeft := dt, painted := .unknown } with
    | error f => rw [hl] at h; cases h
    | ok l =>
      rw [hl] at h
      have k := (dabLoop_induct TameLoop (fun l l' hc hs hl => dabStep_tame L he hl hc hs) fuel _ _ hl
        (startLoop_tame hb surf x y dt)).1
      rw [List.mem_singleton.mp h]
      exact ⟨k.state, k.random0, k.random1, ev, x, y, _, _, _, he, zero_le_one, le_refl _, rfl⟩

theorem moveTo_tame {e : Env K R σ} (L : Laws e) {ev : Event K} (he : TameEvent ev) {fuel : Nat} {b : Brush K R}
    (hb : Tame b) {surf : σ} {x y dt : K} {r : Bool × Brush K R × σ} (h : moveTo e fuel b surf ev x y dt = .ok r) :
    Tame r.2.1 := by
  obtain ⟨l, b1, hl, hu, -, h2, -⟩ := moveTo_eq h
  obtain ⟨k, hlt⟩ := dabLoop_induct TameLoop (fun l l' hc hs hl => dabStep_tame L he hl hc hs) fuel _ _ hl
    (startLoop_tame hb surf x y dt)
  have k1 := update_tame k.state he zero_le_one (le_refl _) hu
  have er : b1.random = l.b.random := by rw [update_eq hu]
  rw [h2, splitStroke_eq]
  refine ⟨⟨add_nonneg k.moved0 k.todo0, hlt⟩, ?_, ?_, ?_⟩
  · exact ⟨k1.pressure, k1.stroke, k1.decl0, k1.decl1, k1.declX0, k1.declX1, k1.declY0, k1.declY1⟩
  · show 0 ≤ b1.random
    rw [er]; exact k.random0
  · show b1.random ≤ 1
    rw [er]; exact k.random1

theorem tame_congr {b b' : Brush K R} (hb : Tame b) (h1 : b'.st = b.st) (h2 : b'.random = b.random) : Tame b' :=
  ⟨by unfold PendingOk; rw [h1]; exact hb.pending, by rw [h1]; exact hb.state, by rw [h2]; exact hb.random0,
    by rw [h2]; exact hb.random1⟩

theorem strokeEvent_tame {e : Env K R σ} (L : Laws e) {ev : Event K} (he : TameEvent ev) {fuel : Nat} {b : Brush K R}
    (hb : Tame b) {surf : σ} {r : Bool × Brush K R × σ} (h : strokeEvent e fuel b surf ev = .ok r) : Tame r.2.1 := by
  rcases strokeEvent_cases h with ⟨-, h⟩ | ⟨-, -, b', h1, h⟩ | ⟨-, -, h⟩
  · rw [h]
    exact tame_congr hb (by simp only; rw [skipStage_eq]) (by simp only; rw [skipStage_eq])
  · obtain ⟨bk, -, e1⟩ := startOver_eq h1
    rw [h, e1]
    have hr := fun s => L.next_range (R := R) s
    refine ⟨⟨le_refl _, zero_lt_one⟩, ?_, (hr _).1, (hr _).2.le⟩
    refine ⟨he.pressure, zero_le_one, le_refl _, ?_, ?_, ?_, ?_, ?_⟩ <;> simp only [State.cleared] <;> norm_num
  · refine moveTo_tame L he (tame_congr hb ?_ ?_) h
    · rw [cursor_eq, skipStage_eq]
    · rw [cursor_eq, skipStage_eq]

theorem eventUpdates_proper {e : Env K R σ} (L : Laws e) {ev : Event K} (he : TameEvent ev) {fuel : Nat} {b : Brush K R}
    (hb : Tame b) {surf : σ} : ∀ u ∈ eventUpdates e fuel b surf ev, Proper u := by
  intro u hu
  unfold eventUpdates at hu
  dsimp only at hu
  split_ifs at hu
  · cases hu
  · cases hu
  · refine moveUpdates_proper L he (tame_congr hb ?_ ?_) u hu
    · rw [cursor_eq, skipStage_eq]
    · rw [cursor_eq, skipStage_eq]

theorem tilt_tame {e : Env K R σ} (L : Laws e) {xt yt : Flt K} {t : K × K × K × K} (h : tilt e xt yt = .ok t) :
    (0 ≤ t.2.1 ∧ t.2.1 ≤ 90) ∧ (-90 ≤ t.2.2.1 ∧ t.2.2.1 ≤ 90) ∧ (-90 ≤ t.2.2.2 ∧ t.2.2.2 ≤ 90) := by
  have cl : ∀ {f : Flt K} {v : K}, clampTilt f = .ok v → -1 ≤ v ∧ v ≤ 1 := by
    intro f v h
    cases f with
    | fin w =>
      have : clampK w (-1) 1 = v := Except.ok.inj h
      rw [← this]; exact clampK_ge (by norm_num)
    | posInf => have : (1 : K) = v := Except.ok.inj h; rw [← this]; constructor <;> norm_num
    | negInf => have : (-1 : K) = v := Except.ok.inj h; rw [← this]; constructor <;> norm_num
    | nan => cases h
  unfold tilt at h
  split_ifs at h
  · obtain ⟨a, ha, h⟩ := bind_ok h
    obtain ⟨c, hc, h⟩ := bind_ok h
    have a1 := cl ha
    have c1 := cl hc
    rw [← Except.ok.inj h]
    simp only
    have h0 := hypot_nonneg L a c
    have h1 : hypot e a c ≤ 3 / 2 := by
      refine le_of_sq_le (by norm_num) ?_
      rw [hypot_sq L]
      have q1 : a * a ≤ 1 := by nlinarith [a1.1, a1.2]
      have q2 : c * c ≤ 1 := by nlinarith [c1.1, c1.2]
      linarith
    refine ⟨⟨?_, ?_⟩, ⟨?_, ?_⟩, ?_, ?_⟩ <;> linarith
  · rw [← Except.ok.inj h]
    simp only
    refine ⟨⟨?_, ?_⟩, ⟨?_, ?_⟩, ?_, ?_⟩ <;> norm_num

theorem sanitise_tame {e : Env K R σ} (L : Laws e) {m : Motion K} {ev : Event K} (h : sanitise e m = .ok ev) :
    TameEvent ev := by
  unfold sanitise at h
  obtain ⟨t, ht, h⟩ := bind_ok h
  have k := tilt_tame L ht
  have hp : 0 ≤ if m.pressure ≤ 0 then (0 : K) else m.pressure := by
    by_cases q : m.pressure ≤ 0
    · rw [if_pos q]
    · rw [if_neg q]; exact (not_le.mp q).le
  dsimp only at h
  split at h
  · split_ifs at h
    all_goals first
      | (rw [← Except.ok.inj h]; exact ⟨by first | exact le_refl _ | exact hp | (simp only; linarith), k.1.1, k.1.2, k.2.1.1, k.2.1.2, k.2.2.1, k.2.2.2⟩)
  · rw [← Except.ok.inj h]
    exact ⟨le_refl _, k.1.1, k.1.2, k.2.1.1, k.2.1.2, k.2.2.1, k.2.2.2⟩

theorem strokeTo_tame {e : Env K R σ} (L : Laws e) {m : Motion K} {fuel : Nat} {b : Brush K R} (hb : Tame b) {surf : σ}
    {r : Bool × Brush K R × σ} (h : strokeTo e fuel b surf m = .ok r) : Tame r.2.1 := by
  unfold strokeTo at h
  obtain ⟨ev, hev, h⟩ := bind_ok h
  have he := sanitise_tame L hev
  split_ifs at h
  · obtain ⟨inner, hi, h⟩ := bind_ok h
    obtain ⟨r1, h1, h⟩ := bind_ok h
    have he2 : TameEvent { ev with dtime := 1 / 10000 } :=
      ⟨he.pressure, he.decl0, he.decl1, he.declX0, he.declX1, he.declY0, he.declY1⟩
    exact strokeEvent_tame L he2 (strokeEvent_tame L (sanitise_tame L hi) hb h1) h
  · exact strokeEvent_tame L he hb h

theorem strokeUpdates_proper {e : Env K R σ} (L : Laws e) {m : Motion K} {fuel : Nat} {b : Brush K R} (hb : Tame b)
    {surf : σ} : ∀ u ∈ strokeUpdates e fuel b surf m, Proper u := by
  intro u hu
  unfold strokeUpdates at hu
  cases hev : sanitise e m with
  | error f => rw [hev] at hu; cases hu
  | ok ev =>
    rw [hev] at hu
    dsimp only at hu
    have he := sanitise_tame L hev
    split_ifs at hu
    · cases hi : sanitise e (workaroundMotion ev) with
      | error f => rw [hi] at hu; cases hu
      | ok inner =>
        rw [hi] at hu
        dsimp only at hu
        rcases List.mem_append.mp hu with h | h
        · exact eventUpdates_proper L (sanitise_tame L hi) hb u h
        · cases hr : strokeEvent e fuel b surf inner with
          | error f => rw [hr] at h; cases h
          | ok r =>
            rw [hr] at h
            have he2 : TameEvent { ev with dtime := 1 / 10000 } :=
              ⟨he.pressure, he.decl0, he.decl1, he.declX0, he.declX1, he.declY0, he.declY1⟩
            exact eventUpdates_proper L he2 (strokeEvent_tame L (sanitise_tame L hi) hb hr) u h
    · exact eventUpdates_proper L he hb u hu

theorem session_proper {e : Env K R σ} (L : Laws e) {fuel : Nat} (ms : List (Motion K)) : ∀ {b : Brush K R} {surf : σ},
    Tame b → ∀ u ∈ sessionUpdates e fuel b surf ms, Proper u := by
  induction ms with
  | nil => intro b surf _ u hu; cases hu
  | cons m ms ih =>
    intro b surf hb u hu
    unfold sessionUpdates at hu
    rcases List.mem_append.mp hu with h | h
    · exact strokeUpdates_proper L hb u h
    · cases hr : strokeTo e fuel b surf m with
      | error f => rw [hr] at h; cases h
      | ok r => rw [hr] at h; exact ih (strokeTo_tame L hb hr) u h

theorem newBrush_tame {junk b : Brush K R} {fresh : List K} {num : Int} {mem : Nat → Nat → Points K} {rng : R}
    (h : newBrush junk fresh num mem rng = .ok b) : Tame b := by
  unfold newBrush at h
  dsimp only at h
  obtain ⟨b1, h1, h⟩ := bind_ok h
  unfold brushReset at h1
  obtain ⟨bk, -, h1⟩ := bind_ok h1
  rw [← Except.ok.inj h, ← Except.ok.inj h1]
  refine ⟨⟨le_refl _, zero_lt_one⟩, ?_, le_refl _, zero_le_one⟩
  refine ⟨?_, ?_, ?_, ?_, ?_, ?_, ?_, ?_⟩ <;> simp only [newStroke, State.cleared] <;> norm_num

theorem viewRotation_range (e : Env K R σ) (a : K) : -180 ≤ viewRotation e a ∧ viewRotation e a < 180 := by
  unfold viewRotation
  have := modArith_spec (e.degrees a + 180) (360 : K) (by norm_num)
  constructor <;> linarith [this.1, this.2.1]

/-- **C53**, inputs. In every step of every session, with a fresh brush or one that has been used, whatever its settings
and whatever the events: all inputs but view zoom, base brush radius and barrel rotation are in their documented range.
What is missing is shown below to be false. -/
theorem inputs_documented_partial {e : Env K R σ} (L : Laws e) {fuel : Nat} {b : Brush K R} (hb : Tame b) (surf : σ)
    (ms : List (Motion K)) (u : Brush K R × Step K) (hu : u ∈ sessionUpdates e fuel b surf ms) (id : Nat)
    (hid : id < Settings.inputs.length) (n1 : id ≠ iViewzoom) (n2 : id ≠ iBrushRadius) (n3 : id ≠ iBarrelRotation) :
    Documented id ((handed e u).get id) := by
  obtain ⟨h1, h2, h3, ev, x, y, d, f, t, he, f0, f1, h4⟩ := session_proper L ms hb u hu
  refine inputs_in_range L h2 h3 ?_ ?_ id hid n1 n2 n3
  · rw [h4]; exact moveStates_tame h1 he f0 f1
  · exact (viewRotation_range e _).1

/-! ### The three others -/

theorem modArith_congr {a b : K} (h : ∃ k : ℤ, a = b + k * 360) : modArith a 360 = modArith b 360 := by
  obtain ⟨k, hk⟩ := h
  unfold modArith
  have e1 : a / 360 = b / 360 + k := by rw [hk]; field_simp
  rw [e1, Int.floor_add_intCast, hk]
  push_cast
  ring

/-- In the last step of an event the barrel rotation is what the event says, in degrees from 0 to 360, as if the range
were not documented as -180 to 180. -/
theorem barrel_rotation_of_event (e : Env K R σ) (b : Brush K R) (ev : Event K) (x y d t : K) :
    (handed e (b, stepTo b.st ev x y d 1 t)).barrelRotation = 360 * Int.fract ev.barrel := by
  show modArith (b.st.barrelRotation + 1 * smallestDiff b.st.barrelRotation (ev.barrel * 360)) 360 = _
  obtain ⟨-, -, ⟨k, hk⟩, -⟩ := smallestDiff_spec b.st.barrelRotation (ev.barrel * 360)
  rw [modArith_congr (b := ev.barrel * 360) ⟨k, by rw [hk]; ring⟩]
  unfold modArith
  rw [mul_div_assoc, div_self (by norm_num : (360 : K) ≠ 0), mul_one, ← Int.self_sub_floor]
  ring

/-- So for every rotation by more than half a turn the input is outside of its documented range. -/
theorem barrel_rotation_undocumented (e : Env K R σ) (b : Brush K R) (ev : Event K) (x y d t : K)
    (h : 1 / 2 < Int.fract ev.barrel) :
    ¬ Documented iBarrelRotation ((handed e (b, stepTo b.st ev x y d 1 t)).get iBarrelRotation) := by
  rintro ⟨info, h1, -, h2⟩
  have e1 : info = ⟨"barrel_rotation", some (-180), some (-180), (0), some (180), some (180)⟩ :=
    (Option.some.inj h1).symm
  have k := h2 180 (by rw [e1])
  have k2 : 360 * Int.fract ev.barrel ≤ ((180 : ℚ) : K) := by
    rw [← barrel_rotation_of_event e b ev x y d t]; exact k
  have e3 : ((180 : ℚ) : K) = 180 := by norm_num
  rw [e3] at k2
  linarith

/-- Base brush radius is the base value, which nothing keeps in its range. -/
theorem brush_radius_is_base (e : Env K R σ) (u : Brush K R × Step K) :
    (handed e u).brushRadius = u.1.baseval sRadiusLogarithmic := rfl

/-! ### Dabs -/

/-- The surface together with a list of the dabs it was asked for. -/
def recordDabs (e : Env K R σ) : Env K R (σ × List (Dab.Args K)) :=
  { exp := e.exp, log := e.log, sqrt := e.sqrt, pow := e.pow, atan2 := e.atan2, cos := e.cos, sin := e.sin
    degrees := e.degrees, next := e.next, gauss := e.gauss
    draw := fun s a => ((e.draw s.1 a).1, (e.draw s.1 a).2, s.2 ++ [a])
    getColor := fun s x y r p => ((e.getColor s.1 x y r p).1, (e.getColor s.1 x y r p).2, s.2) }

omit [FloorRing K] [IsStrictOrderedRing K] in
theorem recordDabs_laws {e : Env K R σ} (L : Laws e) : Laws (recordDabs e) :=
  ⟨L.exp_pos, L.sqrt_nonneg, L.sqrt_sq, L.trig, L.atan2_range, L.next_range, L.pow_range⟩

/-- The ranges of the arguments of a dab; `A` bounds the anti-aliasing setting. -/
structure LegalDab (A : K) (a : Dab.Args K) : Prop where
  opaque0 : 0 ≤ a.opaque'
  opaque1 : a.opaque' ≤ 1
  radius0 : 0 < a.radius
  radius1 : a.radius ≤ 1000 + A / 2 + 1 / 2
  hardness1 : a.hardness ≤ 1
  softness0 : 0 ≤ a.softness
  softness1 : a.softness ≤ 1
  angle0 : -180 ≤ a.angle
  angle1 : a.angle < 0

/-- What this needs of the settings: each is implied by the ranges in `brushsettings.json` if the dynamics keep to
them. -/
structure LegalSettings (A : K) (s : Load.Brush K) : Prop where
  linearize : 0 ≤ (s sOpaqueLinearize).base
  snap : ∀ i, calculate (s sSnapToPixel) i ≤ 1
  antialias : ∀ i, calculate (s sAntiAliasing) i ≤ A
  nonneg : 0 ≤ A

theorem dabOpacity_range {e : Env K R σ} (L : Laws e) {b : Brush K R} (hl : 0 ≤ b.baseval sOpaqueLinearize) {o : K}
    (h : dabOpacity e b = .ok o) : 0 ≤ o ∧ o ≤ 1 := by
  unfold dabOpacity at h
  dsimp only at h
  have c := clampK_ge (a := maxC 0 (b.vals sOpaque) * b.vals sOpaqueMultiply) (lo := 0) (hi := 1) zero_le_one
  generalize clampK (maxC 0 (b.vals sOpaque) * b.vals sOpaqueMultiply) 0 1 = v at *
  by_cases h0 : b.baseval sOpaqueLinearize = 0
  · rw [if_pos h0] at h
    rw [← Except.ok.inj h]; exact c
  · rw [if_neg h0] at h
    obtain ⟨d, hd⟩ : ∃ d, d = (if (b.st.dabsPerActualRadius + b.st.dabsPerBasicRadius) * 2 < 1 then (1 : K)
      else (b.st.dabsPerActualRadius + b.st.dabsPerBasicRadius) * 2) := ⟨_, rfl⟩
    have d1 : 1 ≤ d := by
      rw [hd]
      split_ifs with q
      · exact le_refl _
      · exact not_lt.mp q
    rw [← hd] at h
    have d2 : 0 < 1 + b.baseval sOpaqueLinearize * (d - 1) := by
      have := mul_nonneg hl (sub_nonneg.mpr d1)
      linarith
    rw [if_neg d2.ne'] at h
    rw [← Except.ok.inj h]
    have := L.pow_range (1 - v) (1 / (1 + b.baseval sOpaqueLinearize * (d - 1))) (by linarith [c.2]) (by linarith [c.1])
      (by positivity)
    constructor <;> linarith [this.1, this.2]

theorem dabRadius_range {e : Env K R σ} {b : Brush K R} {o : K} (o0 : 0 ≤ o) (o1 : o ≤ 1)
    (h0 : 1 / 5 ≤ b.st.actualRadius) (h1 : b.st.actualRadius ≤ 1000) :
    (1 / 5 ≤ (dabRadius e b o).1 ∧ (dabRadius e b o).1 ≤ 1000) ∧
      0 ≤ (dabRadius e b o).2.1 ∧ (dabRadius e b o).2.1 ≤ 1 := by
  unfold dabRadius
  dsimp only
  split_ifs with q1 q2
  · refine ⟨clampK_ge (by norm_num), ?_, ?_⟩
    · exact mul_nonneg o0 (mul_self_nonneg _)
    · exact mul_le_one₀ o1 (mul_self_nonneg _) q2
  · exact ⟨clampK_ge (by norm_num), o0, o1⟩
  · exact ⟨⟨h0, h1⟩, o0, o1⟩

theorem antiAlias_range {b : Brush K R} {A h r : K} (h0 : 0 ≤ h) (h1 : h ≤ 1) (r0 : 0 < r) (hA : b.vals sAntiAliasing ≤ A)
    (A0 : 0 ≤ A) :
    (antiAlias b h r).1 ≤ 1 ∧ 0 < (antiAlias b h r).2 ∧ (antiAlias b h r).2 ≤ r + A / 2 := by
  unfold antiAlias
  dsimp only
  split_ifs with q
  · have f0 : 0 < b.vals sAntiAliasing := lt_of_le_of_lt (mul_nonneg r0.le (by linarith)) q
    set f := b.vals sAntiAliasing
    have e1 : r - (1 - h) * r / 2 = r * (1 + h) / 2 := by ring
    have op : 0 < r * (1 + h) / 2 := by positivity
    have op2 : r * (1 + h) / 2 ≤ r := by
      have := mul_nonneg r0.le (sub_nonneg.mpr h1)
      linarith
    simp only [e1]
    generalize r * (1 + h) / 2 = p at *
    have pf : 0 < p + f / 2 := by linarith
    have e2 : 1 - (p - f / 2) / (p + f / 2) = f / (p + f / 2) := by field_simp; ring
    have e3 : f / (f / (p + f / 2)) = p + f / 2 := by field_simp
    rw [e2, e3]
    exact ⟨(div_le_one pf).mpr (by linarith), pf, by linarith⟩
  · exact ⟨h1, r0, by linarith⟩

theorem snap_range {b : Brush K R} {x y r : K} (r0 : 0 < r) (hs : b.vals sSnapToPixel ≤ 1) :
    0 < (snap b x y r).2.2 ∧ (snap b x y r).2.2 ≤ r + 1 / 2 := by
  unfold snap
  dsimp only
  by_cases q : b.vals sSnapToPixel > 0
  · rw [if_pos q]
    simp only
    have hr : (roundHalf (r * 2) : K) ≤ r * 2 + 1 / 2 := by
      unfold roundHalf
      rw [if_pos (by linarith)]
      exact Int.floor_le _
    obtain ⟨s1, hs1⟩ : ∃ s1, s1 = (if (roundHalf (r * 2) : K) / 2 < 1 / 2 then (1 / 2 : K)
      else (roundHalf (r * 2) : K) / 2) := ⟨_, rfl⟩
    rw [← hs1]
    have k1 : 1 / 2 ≤ s1 ∧ s1 ≤ r + 1 / 2 := by
      rw [hs1]
      split_ifs with q2
      · exact ⟨le_refl _, by linarith⟩
      · exact ⟨not_lt.mp q2, by linarith⟩
    obtain ⟨s2, hs2⟩ : ∃ s2, s2 = (if b.vals sSnapToPixel > 9999 / 10000 then s1 - 1 / 10000 else s1) := ⟨_, rfl⟩
    rw [← hs2]
    have k2 : 0 < s2 ∧ s2 ≤ r + 1 / 2 := by
      rw [hs2]
      split_ifs
      · constructor <;> linarith [k1.1, k1.2]
      · constructor <;> linarith [k1.1, k1.2]
    set t := b.vals sSnapToPixel
    have e1 : r + (s2 - r) * t = (1 - t) * r + t * s2 := by ring
    rw [e1]
    have g0 : 0 ≤ 1 - t := by linarith
    constructor
    · have := mul_nonneg g0 r0.le
      have := mul_pos q k2.1
      linarith
    · have a1 := mul_le_mul_of_nonneg_left k2.2 (le_of_lt q)
      have a2 := mul_le_mul_of_nonneg_left (show r ≤ r + 1 / 2 by linarith) g0
      have : (1 - t) * (r + 1 / 2) + t * (r + 1 / 2) = r + 1 / 2 := by ring
      linarith
  · rw [if_neg q]
    exact ⟨r0, by simp only; linarith⟩

omit [FloorRing K] [IsStrictOrderedRing K] in
theorem updateSmudge_log [FloorRing K] (e : Env K R σ) (b : Brush K R) (surf : σ × List (Dab.Args K)) (v : Bucket K) (px py : Int)
    (r : K) : (updateSmudge (recordDabs e) b surf v px py r).2.2.1.2 = surf.2 := by
  have k : ∀ c : Prop, ∀ [Decidable c], ∀ x y r p,
      (if c then ((recordDabs e).getColor surf x y r p).2 else surf).2 = surf.2 := by
    intro c _ x y r p
    split_ifs <;> rfl
  unfold updateSmudge
  dsimp only
  split_ifs <;> first | exact k _ _ _ _ _ | rfl

/-- What an update leaves. -/
theorem update_dab {e : Env K R σ} {b b' : Brush K R} {s : Step K} (h : update e b s = .ok b') :
    (1 / 5 ≤ b'.st.actualRadius ∧ b'.st.actualRadius ≤ 1000) ∧ -180 ≤ b'.st.angle ∧ b'.st.angle < 0 := by
  rw [update_eq h]
  refine ⟨?_, ?_⟩
  · show 1 / 5 ≤ finalRadius e _ ∧ finalRadius e _ ≤ 1000
    unfold finalRadius
    dsimp only
    split_ifs with q1 q2 q2
    · exact ⟨by norm_num, le_refl _⟩
    · exact ⟨le_refl _, by norm_num⟩
    · exact ⟨by norm_num, le_refl _⟩
    · exact ⟨not_lt.mp q1, not_lt.mp q2⟩
  · simp only [followStates]
    generalize (_ - _ + 180 : K) = a
    have m := modArith_spec a (180 : K) (by norm_num)
    constructor <;> linarith [m.1, m.2.1]

/-- One dab, from a state that an update leaves. -/
theorem drawDab_legal {e : Env K R σ} (L : Laws e) {A : K} {b : Brush K R} (hs : LegalSettings A b.settings)
    (hv : b.vals sSnapToPixel ≤ 1) (ha : b.vals sAntiAliasing ≤ A) (r0 : 1 / 5 ≤ b.st.actualRadius)
    (r1 : b.st.actualRadius ≤ 1000) (g0 : -180 ≤ b.st.angle) (g1 : b.st.angle < 0) {surf : σ}
    {log : List (Dab.Args K)} {lin : Bool} {p : Bool × Brush K R × (σ × List (Dab.Args K))}
    (h : drawDab (recordDabs e) b (surf, log) lin = .ok p) (hlog : ∀ a ∈ log, LegalDab A a) :
    ∀ a ∈ p.2.2.2, LegalDab A a := by
  unfold drawDab at h
  obtain ⟨o, ho, h⟩ := bind_ok h
  obtain ⟨pos, hp, h⟩ := bind_ok h
  dsimp only at h
  obtain ⟨sm, hsm, h⟩ := bind_ok h
  have hsurf : sm.2.2.2 = log := by
    unfold smudgeStage at hsm
    split_ifs at hsm
    · dsimp only at hsm
      obtain ⟨v, -, hsm⟩ := bind_ok hsm
      obtain ⟨px, -, hsm⟩ := bind_ok hsm
      obtain ⟨py, -, hsm⟩ := bind_ok hsm
      obtain ⟨b2, -, hsm⟩ := bind_ok hsm
      rw [← Except.ok.inj hsm]
      exact updateSmudge_log _ _ _ _ _ _ _
    · rw [← Except.ok.inj hsm]
  have o01 := dabOpacity_range (recordDabs_laws L) hs.linearize ho
  have f1 := dabPosition_frame hp
  have f2 := f1.trans (dabRadius_frame (recordDabs e) pos.2.2 o)
  have f3 := f2.trans (smudgeStage_frame hsm)
  have rr := dabRadius_range (e := recordDabs e) (b := pos.2.2) o01.1 o01.2 (by rw [f1.st]; exact r0)
    (by rw [f1.st]; exact r1)
  split_ifs at h
  · rw [← Except.ok.inj h]
    simp only
    rw [hsurf]
    exact hlog
  · obtain ⟨col, hcol, h⟩ := bind_ok h
    have f4 := f3.trans (smudgeColor_frame hcol)
    rw [← Except.ok.inj h]
    intro a ha'
    simp only [recordDabs] at ha'
    rw [hsurf] at ha'
    rcases List.mem_append.mp ha' with q | q
    · exact hlog a q
    · rw [List.mem_singleton.mp q]
      have hh := clampK_ge (a := col.2.2.vals sHardness) (lo := 0) (hi := 1) zero_le_one
      have aa := antiAlias_range (b := col.2.2) (A := A) hh.1 hh.2 (r := (dabRadius (recordDabs e) pos.2.2 o).1)
        (lt_of_lt_of_le (by norm_num) rr.1.1) (by rw [f4.vals]; exact ha) hs.nonneg
      have ss := fun x y => snap_range (b := col.2.2) (x := x) (y := y) aa.2.1 (by rw [f4.vals]; exact hv)
      refine ⟨rr.2.1, rr.2.2, (ss _ _).1, le_trans (ss _ _).2 (by linarith [rr.1.2, aa.2.2]), aa.1,
        (clampK_ge zero_le_one).1, (clampK_ge zero_le_one).2, ?_, ?_⟩
      · show -180 ≤ col.2.2.st.angle
        rw [f4.st]; exact g0
      · show col.2.2.st.angle < 0
        rw [f4.st]; exact g1

/-- The dabs of a session. -/
theorem dabStep_legal {e : Env K R σ} (L : Laws e) {A : K} {ev : Event K} {x y : K}
    {l l' : Loop K R (σ × List (Dab.Args K))} (hs : LegalSettings A l.b.settings)
    (h : dabStep (recordDabs e) ev x y l = .ok l') (hlog : ∀ a ∈ l.surf.2, LegalDab A a) :
    LegalSettings A l'.b.settings ∧ ∀ a ∈ l'.surf.2, LegalDab A a := by
  have es := (dabStep_xy h).2.2
  refine ⟨by rw [es]; exact hs, ?_⟩
  obtain ⟨hz, b1, p, b2, hu, hd, h2, e1⟩ := dabStep_eq h
  rw [e1]
  simp only
  have eu := update_eq hu
  refine drawDab_legal L (A := A) (b := { b1 with st := { b1.st with flip := b1.st.flip * -1 } }) ?_ ?_ ?_ ?_ ?_ ?_ ?_
    (surf := l.surf.1) (log := l.surf.2) hd hlog
  · rw [eu]; exact hs
  · rw [eu]; exact hs.snap _
  · rw [eu]; exact hs.antialias _
  · exact (update_dab hu).1.1
  · exact (update_dab hu).1.2
  · exact (update_dab hu).2.1
  · exact (update_dab hu).2.2

theorem strokeEvent_legal {e : Env K R σ} (L : Laws e) {A : K} {fuel : Nat} {b : Brush K R}
    {surf : σ × List (Dab.Args K)} {ev : Event K} (hs : LegalSettings A b.settings) (hlog : ∀ a ∈ surf.2, LegalDab A a)
    {r : Bool × Brush K R × (σ × List (Dab.Args K))} (h : strokeEvent (recordDabs e) fuel b surf ev = .ok r) :
    LegalSettings A r.2.1.settings ∧ ∀ a ∈ r.2.2.2, LegalDab A a := by
  rcases strokeEvent_cases h with ⟨-, h⟩ | ⟨-, -, b', h1, h⟩ | ⟨-, -, h⟩
  · rw [h]
    refine ⟨?_, hlog⟩
    simp only
    rw [skipStage_eq]; exact hs
  · obtain ⟨bk, -, e1⟩ := startOver_eq h1
    rw [h]
    refine ⟨?_, hlog⟩
    simp only
    rw [e1]
    simp only
    rw [cursor_eq, skipStage_eq]
    exact hs
  · obtain ⟨l, b1, hl, hu, -, h2, h3⟩ := moveTo_eq h
    have k := (dabLoop_induct
      (fun l : Loop K R (σ × List (Dab.Args K)) => LegalSettings A l.b.settings ∧ ∀ a ∈ l.surf.2, LegalDab A a)
      (fun l l' _ hst hp => dabStep_legal L hp.1 hst hp.2) _ _ _ hl (by
        refine ⟨?_, hlog⟩
        simp only
        rw [countDabs_st]
        show LegalSettings A (cursor (recordDabs e) _ _ _ _).2.2.settings
        rw [cursor_eq, skipStage_eq]
        exact hs)).1
    refine ⟨?_, by rw [h3]; exact k.2⟩
    rw [h2, splitStroke_eq, update_eq hu]
    exact k.1

/-- **C53**, dabs. Whatever the events, every dab of a session has an opacity from 0 to 1, a positive radius of at most
1000 plus what anti-aliasing and snapping add, a hardness of at most 1, a softness from 0 to 1 and an angle from -180 to 0.
What is missing: nothing keeps the aspect ratio above 1 or the hardness above 0, see below; the surface clamps both. -/
theorem dabs_legal_partial {e : Env K R σ} (L : Laws e) {A : K} {fuel : Nat} (ms : List (Motion K)) :
    ∀ {b : Brush K R} {surf : σ × List (Dab.Args K)}, LegalSettings A b.settings → (∀ a ∈ surf.2, LegalDab A a) →
    ∀ {r : Brush K R × (σ × List (Dab.Args K))}, strokes (recordDabs e) fuel b surf ms = .ok r →
    ∀ a ∈ r.2.2, LegalDab A a := by
  induction ms with
  | nil =>
    intro b surf _ hlog r h
    rw [← Except.ok.inj h]
    exact hlog
  | cons m ms ih =>
    intro b surf hs hlog r h
    unfold strokes at h
    obtain ⟨r1, h1, h⟩ := bind_ok h
    have k : LegalSettings A r1.2.1.settings ∧ ∀ a ∈ r1.2.2.2, LegalDab A a := by
      unfold strokeTo at h1
      obtain ⟨ev, -, h1⟩ := bind_ok h1
      split_ifs at h1
      · obtain ⟨inner, -, h1⟩ := bind_ok h1
        obtain ⟨r2, h2, h1⟩ := bind_ok h1
        obtain ⟨k1, k2⟩ := strokeEvent_legal L hs hlog h2
        exact strokeEvent_legal L k1 k2 h1
      · exact strokeEvent_legal L hs hlog h1
    exact ih k.1 k.2 h

end

/-! ### View zoom, over the real numbers -/

open Real in
/-- The view zoom input is the logarithm of the zoom that the application passes, so it leaves its range when the zoom is
above `exp 4.15` or below `exp (-2.77)`. -/
theorem viewzoom_undocumented {R σ : Type} (next gauss : R → ℝ × R) (draw : σ → Dab.Args ℝ → Bool × σ)
    (getColor : σ → Int → Int → ℝ → ℝ → Color.Rgba ℝ × σ) (u : Brush ℝ R × Step ℝ) (h : 0 < u.2.viewzoom) :
    (handed (realEnv next gauss draw getColor) u).get iViewzoom = Real.log u.2.viewzoom ∧
    (Real.exp (83 / 20) < u.2.viewzoom →
      ¬ Documented iViewzoom ((handed (realEnv next gauss draw getColor) u).get iViewzoom)) := by
  have e1 : (handed (realEnv next gauss draw getColor) u).get iViewzoom = Real.log u.2.viewzoom := by
    show u.1.baseval sRadiusLogarithmic - Real.log (Real.exp (u.1.baseval sRadiusLogarithmic) / u.2.viewzoom) = _
    rw [Real.log_div (Real.exp_pos _).ne' h.ne', Real.log_exp]
    ring
  refine ⟨e1, ?_⟩
  rw [e1]
  rintro hz ⟨info, h1, -, h2⟩
  have e2 : info = ⟨"viewzoom", some (-277/100), some (-277/100), (0), some (83/20), some (83/20)⟩ :=
    (Option.some.inj h1).symm
  have k := h2 (83 / 20) (by rw [e2])
  have k2 : (((83 / 20 : ℚ)) : ℝ) = 83 / 20 := by norm_num
  rw [k2] at k
  exact absurd ((Real.lt_log_iff_exp_lt h).mpr hz) (not_lt.mpr k)

/-! ### The theorems are not empty -/

section Examples
open Demo

/-- Three events; the last one turns the barrel by three quarters and tilts the pen. -/
def turned : List (Motion ℚ) :=
  [motion 0 0 (1 / 2) (1 / 100), motion 0 0 (1 / 2) (1 / 100), { motion 6 0 1 (1 / 20) with barrel := 3 / 4, xtilt := .fin 1 }]

/-- The steps: tilt declination and barrel rotation in each of them. -/
def seen : List (ℚ × ℚ) :=
  (sessionUpdates env 20 brush [] turned).map fun u =>
    ((handed env u).get iTiltDeclination, (handed env u).get iBarrelRotation)

/-- Declination goes from 90 to 30. Barrel rotation goes, the short way, from 0 to 270: out of its range. -/
example : seen = [(90, 0), (75, 675 / 2), (60, 315), (45, 585 / 2), (30, 270), (30, 270)] := by decide +kernel

/-- A ratio of 1/2 is passed on to the surface. -/
theorem aspect_ratio_unchecked :
    look (fun r => r.2.map fun a => a.aspect) (strokes env 20 (set brush sEllipticalDabRatio (1 / 2)) [] turned) =
      some [1 / 2, 1 / 2, 1 / 2, 1 / 2] := by decide +kernel

/-- Settings within their ranges (a small soft brush with strong anti-aliasing) give a negative hardness. -/
theorem hardness_unchecked :
    look (fun r => (r.2.map fun a => decide (a.hardness < 0)).head?)
      (strokes env 60 (set (set (set brush sRadiusLogarithmic (-2)) sHardness 0) sAntiAliasing 5) [] turned) =
      some (some true) := by decide +kernel

example {R σ : Type} (next gauss : R → ℝ × R) (draw : σ → Dab.Args ℝ → Bool × σ)
    (getColor : σ → Int → Int → ℝ → ℝ → Color.Rgba ℝ × σ) (h : ∀ r, 0 ≤ (next r).1 ∧ (next r).1 < 1)
    {junk b : Brush ℝ R} {fresh : List ℝ} {num : Int} {mem : Nat → Nat → Points ℝ} {rng : R}
    (hb : newBrush junk fresh num mem rng = .ok b) (fuel : Nat) (surf : σ) (ms : List (Motion ℝ)) :
    ∀ u ∈ sessionUpdates (realEnv next gauss draw getColor) fuel b surf ms,
      Documented iDirection ((handed (realEnv next gauss draw getColor) u).get iDirection) := fun u hu =>
  inputs_documented_partial (realEnv_laws next gauss draw getColor h) (newBrush_tame hb) surf ms u hu iDirection
    (by decide) (by decide) (by decide) (by decide)

example : LegalSettings (K := ℚ) 1 settings where
  linearize := by decide +kernel
  snap i := by show calculate (constant 0) i ≤ 1; unfold calculate; norm_num [constant]
  antialias i := by show calculate (constant 1) i ≤ 1; unfold calculate; norm_num [constant]
  nonneg := by norm_num

end Examples

end Verif.Engine
