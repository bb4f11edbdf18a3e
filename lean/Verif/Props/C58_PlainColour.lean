import Verif.Lemmas.EngineSession
import Verif.Spec.EngineDemo

/-!
# C58: a brush paints with its own colour and settings

The dabs that a session asks of the surface are compared with the settings of the brush.
-/

namespace Verif.Engine
open Verif.Mask Verif.Color Verif.Spectral Verif.Map

section
variable {K R σ : Type} [Field K] [LinearOrder K] [IsStrictOrderedRing K] [FloorRing K]

/-- No smudging and no change of the colour by the dynamics, whatever the inputs. -/
structure PlainColour (s : Load.Brush K) : Prop where
  smudge : ∀ i, calculate (s sSmudge) i ≤ 0
  h : ∀ i, calculate (s sChangeColorH) i = 0
  v : ∀ i, calculate (s sChangeColorV) i = 0
  hsvS : ∀ i, calculate (s sChangeColorHsvS) i = 0
  l : ∀ i, calculate (s sChangeColorL) i = 0
  hslS : ∀ i, calculate (s sChangeColorHslS) i = 0

/-- The colour the user chose. -/
def chosenColour (s : Load.Brush K) : Rgb K := hsvToRgb ⟨(s sColorH).base, (s sColorS).base, (s sColorV).base⟩

/-- The dab has the colour of the brush and shows the canvas through in so far as the brush erases. -/
def OwnColour (s : Load.Brush K) (a : Dab.Args K) : Prop :=
  (⟨a.colorR, a.colorG, a.colorB⟩ : Rgb K) = chosenColour s ∧ ∃ i, a.colorA = 1 - calculate (s sEraser) i

/-- What a dab passes on unchanged: for some values of the inputs, the values of the settings. -/
def PassedOn (s : Load.Brush K) (a : Dab.Args K) : Prop :=
  ∃ i, a.lockAlpha = calculate (s sLockAlpha) i ∧ a.colorize = calculate (s sColorize) i ∧
    a.posterize = calculate (s sPosterize) i ∧ a.posterizeNum = calculate (s sPosterizeNum) i ∧
    a.paint = calculate (s sPaintMode) i ∧ a.softness = clampK (calculate (s sSoftness) i) 0 1

theorem colorDynamics_plain {e : Env K R σ} {b : Brush K R} (h1 : b.vals sChangeColorH = 0)
    (h2 : b.vals sChangeColorV = 0) (h3 : b.vals sChangeColorHsvS = 0) (h4 : b.vals sChangeColorL = 0)
    (h5 : b.vals sChangeColorHslS = 0) (lin : Bool) (c : Rgb K) : colorDynamics e b lin c = c := by
  have k : ¬ (b.vals sChangeColorH ≠ 0 ∨ b.vals sChangeColorHsvS ≠ 0 ∨ b.vals sChangeColorV ≠ 0) := by
    rintro (h | h | h)
    · exact h h1
    · exact h h3
    · exact h h2
  have k2 : ¬ (b.vals sChangeColorL ≠ 0 ∨ b.vals sChangeColorHslS ≠ 0) := by
    rintro (h | h)
    · exact h h4
    · exact h h5
  have k3 : ¬ (lin = true ∧ ((b.vals sChangeColorH ≠ 0 ∨ b.vals sChangeColorHsvS ≠ 0 ∨ b.vals sChangeColorV ≠ 0) ∨
      b.vals sChangeColorL ≠ 0 ∨ b.vals sChangeColorHslS ≠ 0)) := by
    rintro ⟨-, h | h⟩
    · exact k h
    · exact k2 h
  unfold colorDynamics
  dsimp only
  rw [if_neg k3, if_neg k, if_neg k2, if_neg k3]

theorem smudgeColor_plain {e : Env K R σ} {b : Brush K R} (h : b.vals sSmudge ≤ 0) {c : Rgb K}
    {col : K × Rgb K × Brush K R} (hc : smudgeColor e b c = .ok col) : col = (1, c, b) := by
  unfold smudgeColor at hc
  rw [if_neg (not_lt.mpr h)] at hc
  exact (Except.ok.inj hc).symm

theorem settings_kept_invariant (e : Env K R σ) (s0 : Load.Brush K) :
    Invariant e (fun _ => True) (fun _ _ => True) (fun b _ => b.settings = s0) (fun b _ => b.settings = s0) :=
  Invariant.ofBlind (e := e) (I := fun (s : Load.Brush K) _ => s = s0)
    (J := fun (s : Load.Brush K) (_ : Nat → K) _ => s = s0) (fun _ _ _ h => h) (fun _ _ _ h => h)
    (fun _ _ _ _ h _ => h)

/-- Painting never changes the settings of the brush. -/
theorem settings_kept (e : Env K R σ) {fuel : Nat} (ms : List (Motion K)) {b : Brush K R} (hb : Underway b) (surf : σ)
    {r : Brush K R × σ} (h : strokes e fuel b surf ms = .ok r) : r.1.settings = b.settings :=
  (session_keeps (settings_kept_invariant e b.settings) (fun _ => True) (fun _ _ _ _ => trivial)
    (fun _ _ _ _ => trivial) (fun _ _ => trivial) ms (fun _ _ => trivial) hb rfl h).1

theorem plain_invariant (e : Env K R σ) :
    Invariant (recordDabs e) (fun _ => True) (fun _ _ => True)
      (fun b s => PlainColour b.settings ∧ ∀ a ∈ s.2, OwnColour b.settings a)
      (fun b s => PlainColour b.settings ∧ (∃ i, b.vals = fun id => calculate (b.settings id) i) ∧
        ∀ a ∈ s.2, OwnColour b.settings a) :=
  Invariant.ofBlind (e := recordDabs e) (I := fun (s : Load.Brush K) (l : σ × List (Dab.Args K)) => PlainColour s ∧ ∀ a ∈ l.2, OwnColour s a)
    (J := fun (s : Load.Brush K) (v : Nat → K) (l : σ × List (Dab.Args K)) => PlainColour s ∧ (∃ i, v = fun id => calculate (s id) i) ∧ ∀ a ∈ l.2, OwnColour s a)
    (fun s surf i h => ⟨h.1, ⟨_, rfl⟩, h.2⟩) (fun s v surf h => ⟨h.1, h.2.2⟩) (by
      rintro b surf lin p ⟨hp, ⟨i, hv⟩, hl⟩ hd
      refine ⟨hp, ?_⟩
      rcases drawDab_oneDab hd with h | ⟨o, pos, sm, col, -, -, -, fr, hc, fr2, -, h⟩
      · rw [h]; exact hl
      · rw [h]
        intro a ha
        rcases List.mem_append.mp ha with q | q
        · exact hl a q
        · rw [List.mem_singleton.mp q]
          have k := smudgeColor_plain (by rw [fr.vals, hv]; exact hp.smudge i) hc
          have kv : col.2.2.vals = b.vals := fr2.vals
          refine ⟨?_, i, ?_⟩
          · show colorDynamics _ col.2.2 lin col.2.1 = _
            rw [colorDynamics_plain (by rw [kv, hv]; exact hp.h i) (by rw [kv, hv]; exact hp.v i)
              (by rw [kv, hv]; exact hp.hsvS i) (by rw [kv, hv]; exact hp.l i) (by rw [kv, hv]; exact hp.hslS i), k]
            rfl
          · show (if col.2.2.vals sEraser ≠ 0 then col.1 * (1 - col.2.2.vals sEraser) else col.1) = _
            have e1 : calculate (b.settings sEraser) i = col.2.2.vals sEraser := by rw [kv, hv]
            have e2 : col.1 = 1 := by rw [k]
            rw [e1, e2]
            split_ifs with q
            · rw [one_mul]
            · rw [not_not.mp q, sub_zero])

/-- **C58**, colour. Whatever the events and the generator, and whatever the canvas: every dab of a brush that neither
smudges nor changes its colour has exactly the colour of the brush, and an alpha that depends on the eraser setting
alone. -/
theorem paints_own_colour (e : Env K R σ) {fuel : Nat} (ms : List (Motion K)) {b : Brush K R} (hb : Underway b)
    (hs : PlainColour b.settings) (surf : σ) {r : Brush K R × (σ × List (Dab.Args K))}
    (h : strokes (recordDabs e) fuel b (surf, []) ms = .ok r) :
    ∀ a ∈ r.2.2, OwnColour b.settings a := by
  rw [← settings_kept _ ms hb _ h]
  exact (session_keeps (plain_invariant e) (fun _ => True) (fun _ _ _ _ => trivial) (fun _ _ _ _ => trivial)
    (fun _ _ => trivial) ms (fun _ _ => trivial) hb ⟨hs, by simp⟩ h).1.2

theorem passed_invariant (e : Env K R σ) :
    Invariant (recordDabs e) (fun _ => True) (fun _ _ => True)
      (fun b s => ∀ a ∈ s.2, PassedOn b.settings a)
      (fun b s => (∃ i, b.vals = fun id => calculate (b.settings id) i) ∧ ∀ a ∈ s.2, PassedOn b.settings a) :=
  Invariant.ofBlind (e := recordDabs e) (I := fun (s : Load.Brush K) (l : σ × List (Dab.Args K)) => ∀ a ∈ l.2, PassedOn s a)
    (J := fun (s : Load.Brush K) (v : Nat → K) (l : σ × List (Dab.Args K)) => (∃ i, v = fun id => calculate (s id) i) ∧ ∀ a ∈ l.2, PassedOn s a)
    (fun s surf i h => ⟨⟨_, rfl⟩, h⟩) (fun s v surf h => h.2) (by
      rintro b surf lin p ⟨⟨i, hv⟩, hl⟩ hd
      rcases drawDab_oneDab hd with h | ⟨o, pos, sm, col, -, -, -, fr, hc, fr2, -, h⟩
      · rw [h]; exact hl
      · rw [h]
        intro a ha
        rcases List.mem_append.mp ha with q | q
        · exact hl a q
        · rw [List.mem_singleton.mp q]
          have kv : ∀ id, col.2.2.vals id = calculate (b.settings id) i := by intro id; rw [fr2.vals, hv]
          refine ⟨i, kv _, kv _, kv _, kv _, kv _, ?_⟩
          show clampK (col.2.2.vals sSoftness) 0 1 = _
          rw [kv])

/-- **C58**, the rest of the settings that concern the surface only: the values of one and the same step reach the dab,
for every brush. -/
theorem passes_settings_on (e : Env K R σ) {fuel : Nat} (ms : List (Motion K)) {b : Brush K R} (hb : Underway b) (surf : σ)
    {r : Brush K R × (σ × List (Dab.Args K))} (h : strokes (recordDabs e) fuel b (surf, []) ms = .ok r) :
    ∀ a ∈ r.2.2, PassedOn b.settings a := by
  rw [← settings_kept _ ms hb _ h]
  exact (session_keeps (passed_invariant e) (fun _ => True) (fun _ _ _ _ => trivial) (fun _ _ _ _ => trivial)
    (fun _ _ => trivial) ms (fun _ _ => trivial) hb (by simp) h).1

end

/-! ### A session that meets the hypotheses -/

open Demo in
theorem demo_constant (v : ℚ) (i : Nat → ℚ) : calculate (constant v) i = v := by
  unfold calculate constant
  simp

/-- The default brush erasing a quarter. -/
def demoEraser : Brush ℚ Nat := Demo.set Demo.brush sEraser (1 / 4)

theorem demoEraser_plain : PlainColour demoEraser.settings := by
  refine ⟨?_, ?_, ?_, ?_, ?_, ?_⟩ <;> intro i
  · exact (demo_constant _ i).le
  all_goals exact demo_constant _ i

theorem demoEraser_underway : Underway demoEraser := ⟨⟨le_refl _, zero_lt_one⟩, le_refl _⟩

/-- Three events that draw dabs in the chosen colour, here black, with an alpha of three quarters. -/
example : Demo.look (fun r => r.2.2.map fun a => (a.colorR, a.colorG, a.colorB, a.colorA))
    (strokes (recordDabs Demo.env) 100 demoEraser ([], [])
      [Demo.motion 0 0 (1 / 2) (1 / 10), Demo.motion 1 0 (1 / 2) (1 / 10), Demo.motion 4 0 (1 / 2) (1 / 10)]) =
    some [(0, 0, 0, 3 / 4), (0, 0, 0, 3 / 4)] := by decide +kernel

end Verif.Engine
