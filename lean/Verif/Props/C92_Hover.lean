import Verif.Props.C46_Load
import Verif.Props.C67_Marks

/-!
# C92: a pen that hovers paints nothing
-/

namespace Verif.Painting
open Verif.Full Verif.Dab Verif.Engine Verif.Blend Verif.Map Verif.Mask

/-! ## Specification -/

section
variable {K R σ : Type} [Field K] [LinearOrder K] [IsStrictOrderedRing K] [FloorRing K]

/-- The event comes without pressure. -/
def Hovers (m : Motion K) : Prop := m.pressure ≤ 0

/-- A brush that is transparent when there is no pressure, whatever the other inputs are. -/
def NeedsPressure (s : Load.Brush K) : Prop :=
  ∀ i : Nat → K, i iPressure = 0 → calculate (s sOpaque) i ≤ 0 ∨ calculate (s sOpaqueMultiply) i ≤ 0

/-- Powers of one are one. -/
def PowOne (e : Engine.Env K R σ) : Prop := ∀ n : K, e.pow 1 n = 1

/-! ## Proof -/

theorem dabOpacity_none {e : Engine.Env K R σ} (he : PowOne e) {b : Brush K R}
    (hz : b.vals sOpaque ≤ 0 ∨ b.vals sOpaqueMultiply ≤ 0) {o : K} (h : dabOpacity e b = .ok o) : o = 0 := by
  unfold dabOpacity at h
  dsimp only at h
  have p : clampK (Color.maxC 0 (b.vals sOpaque) * b.vals sOpaqueMultiply) 0 1 = 0 := by
    rw [clampK_eq_zero, maxC_eq]
    rcases hz with hz | hz
    · rw [max_eq_left hz, zero_mul]
    · exact mul_nonpos_of_nonneg_of_nonpos (le_max_left _ _) hz
  rw [p] at h
  split_ifs at h
  · exact (Except.ok.inj h).symm
  all_goals
    first
    | (cases h; done)
    | (rw [← Except.ok.inj h, sub_zero, he, sub_self])

theorem hover_event {e : Engine.Env K R σ} {m : Motion K} {ev : Engine.Event K} (hm : Hovers m) (h : sanitise e m = .ok ev) :
    ev.pressure = 0 := by
  unfold sanitise at h
  obtain ⟨t, -, h⟩ := bind_ok h
  dsimp only at h
  rw [if_pos (show m.pressure ≤ 0 from hm)] at h
  split at h
  · split_ifs at h
    all_goals rw [← Except.ok.inj h]
  · rw [← Except.ok.inj h]

theorem hover_invariant {e : Engine.Env K R σ} (he : PowOne e) :
    Invariant (recordDabs e) (fun ev => ev.pressure = 0) (fun _ _ => True)
      (fun b s => NeedsPressure b.settings ∧ b.st.pressure = 0 ∧ ∀ a ∈ s.2, a.opaque' ≤ 0)
      (fun b s => NeedsPressure b.settings ∧ b.st.pressure = 0 ∧ (b.vals sOpaque ≤ 0 ∨ b.vals sOpaqueMultiply ≤ 0) ∧
        ∀ a ∈ s.2, a.opaque' ≤ 0) where
  skip b s ev _ h := by rw [skipStage_eq]; exact h
  pull b s ev _ _ h := by rw [cursor_eq, skipStage_eq]; exact h
  target _ _ _ _ _ _ := trivial
  start b s ev x y b' hev _ h _ hs := by
    obtain ⟨bk, -, e1⟩ := startOver_eq hs
    rw [e1]; exact ⟨h.1, hev, h.2.2⟩
  count b s x y dt h := by
    rw [countDabs_st]
    exact h
  step b s ev x y d f t b' hev _ _ _ _ _ h hu := by
    obtain ⟨h1, h2, h3⟩ := h
    have hp : (moveStates (recordDabs e) b (stepTo b.st ev x y d f t)).pressure = 0 := by
      show (if b.st.pressure + f * (ev.pressure - b.st.pressure) ≤ 0 then 0 else b.st.pressure + f * (ev.pressure - b.st.pressure)) = 0
      rw [h2, hev, sub_self, mul_zero, add_zero, if_pos le_rfl]
    rw [update_eq hu]
    refine ⟨h1, hp, ?_, h3⟩
    refine h1 (inputsOf (recordDabs e) b (moveStates (recordDabs e) b (stepTo b.st ev x y d f t))).get ?_
    show (moveStates (recordDabs e) b (stepTo b.st ev x y d f t)).pressure * _ = 0
    rw [hp, zero_mul]
  draw b s lin p h hp := by
    obtain ⟨h1, h2, h3, h4⟩ := h
    have fr := drawDab_frame hp
    refine ⟨?_, ?_, ?_⟩
    · show NeedsPressure p.2.1.settings
      rw [fr.settings]; exact h1
    · show p.2.1.st.pressure = 0
      rw [fr.st]; exact h2
    · rcases drawDab_oneDab hp with h | ⟨o, pos, sm, col, ho, hpos, -, -, -, -, -, h⟩
      · rw [h]; exact h4
      · rw [h]
        intro a ha
        rcases List.mem_append.mp ha with q | q
        · exact h4 a q
        · rw [List.mem_singleton.mp q]
          show (dabRadius (recordDabs e) pos.2.2 o).2.1 ≤ 0
          have o0 : o = 0 := dabOpacity_none (e := recordDabs e) he h3 ho
          unfold dabRadius
          rw [o0]
          dsimp only
          split_ifs <;> simp
  finish b s n total idle h := ⟨h.1, h.2.1, h.2.2.2⟩

theorem hover_dabs {e : Engine.Env K R σ} (he : PowOne e) {fuel : Nat} (ms : List (Motion K)) (hm : ∀ m ∈ ms, Hovers m)
    {b : Brush K R} (hb : Underway b) (hs : NeedsPressure b.settings) (hp : b.st.pressure = 0) (surf : σ)
    {r : Brush K R × (σ × List (Args K))} (h : strokes (recordDabs e) fuel b (surf, []) ms = .ok r) :
    r.1.st.pressure = 0 ∧ ∀ a ∈ r.2.2, Invisible a := by
  have k := (session_keeps (hover_invariant he) Hovers (fun m ev hm h => hover_event hm h)
    (fun ev i _ h => hover_event (m := workaroundMotion ev) (show (0 : K) ≤ 0 from le_refl _) h) (fun ev h => h) ms hm hb
    ⟨hs, hp, by simp⟩ h).1
  exact ⟨k.2.1, fun a ha => .inl (k.2.2 a ha)⟩

/-! ## C92 -/

/-- **C92**. With a brush that needs pressure, and that was last told that there is none, events without pressure
leave the picture as it is, over any number of blocks, with or without symmetry, for any movement and any time. -/
theorem hovering_paints_nothing {e : Engine.Env K R σ} (he : PowOne e) {b : Build} {env : Dab.Env K}
    {trig : Symm.Trig K} {sch : Schedule} {fuel : Nat} (bls : List (Block K)) {s s' : Studio K R}
    (hs : s.Fine b env trig) (hb : ∀ bl ∈ bls, bl.Ok ∧ ∀ m ∈ bl.motions, Hovers m) (ht : NeedsPressure s.brush.settings)
    (hp : s.brush.st.pressure = 0) (h : paint e b env trig sch fuel s bls = .ok s') :
    s'.surf.surf.canvas = s.surf.surf.canvas ∧ s'.brush.st.pressure = 0 := by
  have k := (paint_keeps (I := fun br => br.settings = s.brush.settings ∧ br.st.pressure = 0)
    (Q := fun c => c = s.surf.surf.canvas)
    (B := fun bl => ∀ m ∈ bl.motions, Hovers m) (S := fun _ => True) (fun _ _ _ _ => trivial) (fun _ _ _ _ => trivial) ?_ bls hs
    hb trivial ⟨rfl, hp⟩ rfl h).2
  · exact ⟨k.2, k.1.2⟩
  intro bl br w r hB hu hI hr
  obtain ⟨k1, k2⟩ := hover_dabs (e := onTiles e b env sch) he bl.motions hB hu (hI.1 ▸ ht) hI.2 w hr
  refine ⟨⟨(settings_kept _ bl.motions hu _ hr).trans hI.1, k1⟩, ?_⟩
  intro a hin x y θ d _ _ op hop
  rcases invisible_iff_nothing_queued (moved a x y θ) with ⟨q, -⟩ | ⟨-, q⟩ | ⟨q, -⟩
  · rw [q] at hop; cases hop
  · rw [q] at hop; cases hop
  · exact absurd (k2 a hin) q

/-- **C92**. Lifting the pen is telling the brush: after an event without pressure the brush is without pressure, if the brush
does not use tracking noise (which skips events). -/
theorem lifting_the_pen {e : Engine.Env K R σ} {fuel : Nat} {b : Brush K R} {surf : σ} {m : Motion K} (hm : Hovers m)
    (hs : b.skip ≤ 1 / 1000) {r : Bool × Brush K R × σ} (h : strokeTo e fuel b surf m = .ok r) : r.2.1.st.pressure = 0 := by
  have key : ∀ ev : Engine.Event K, ev.pressure = 0 → strokeEvent e fuel b surf ev = .ok r → r.2.1.st.pressure = 0 := by
    intro ev hev h
    have sk : skipStage e b ev.x ev.y ev.dtime = (b, ev.dtime, false) := by
      unfold skipStage
      rw [if_neg (not_lt.mpr hs)]
    rcases strokeEvent_cases h with ⟨h1, -⟩ | ⟨-, h1, b', h2, h⟩ | ⟨-, -, h⟩
    · rw [sk] at h1; cases h1
    · obtain ⟨bk, -, e1⟩ := startOver_eq h2
      rw [h, e1]
      exact hev
    · rw [(move_ends_at_target hev.ge h).2.2.1, hev]
  unfold strokeTo at h
  obtain ⟨ev, hev, h⟩ := bind_ok h
  have hz := hover_event hm hev
  rw [if_neg (by simp [hz])] at h
  exact key ev hz h

/-- A new brush has no pressure. -/
theorem newBrush_pressure {junk b : Brush K R} {fresh : List K} {num : Int} {mem : Nat → Nat → Points K} {rng : R}
    (h : newBrush junk fresh num mem rng = .ok b) : b.st.pressure = 0 := by
  unfold newBrush at h
  dsimp only at h
  obtain ⟨b1, h1, h⟩ := bind_ok h
  unfold brushReset at h1
  obtain ⟨bk, -, h1⟩ := bind_ok h1
  rw [← Except.ok.inj h, ← Except.ok.inj h1]
  rfl

/-- **C92**. The default brush needs pressure. -/
theorem default_brush_needs_pressure {s s' : Load.Brush K} (hg : Load.Good s) (h : Load.fromDefaults s = .ok s') :
    NeedsPressure s' := by
  obtain ⟨s2, h2, hgood, hbase, hcurve, hopq⟩ := Load.from_defaults_resets s hg zero_le_one
  rw [h] at h2
  cases h2
  intro i hi
  right
  have hom : sOpaqueMultiply < Settings.settingsCount := by decide +kernel
  have hin := (hgood _ hom).2
  have e0 : (s' sOpaqueMultiply).base = 0 := by
    rw [hbase _ hom, show Load.defaultOf sOpaqueMultiply = 0 by decide +kernel, Rat.cast_zero]
  obtain ⟨hn, hpt⟩ := hopq
  have hpi : Load.pressureInput = iPressure := by decide +kernel
  have hol : Load.opaqueMultiply = sOpaqueMultiply := by decide +kernel
  rw [hpi, hol] at hn hpt
  have n2 : ((s' sOpaqueMultiply).pts iPressure).n = 2 := by
    unfold getN at hn
    split_ifs at hn
    simpa using hn
  have q0 := hpt 0 _ rfl
  have q1 := hpt 1 _ rfl
  unfold getPoint at q0 q1
  split_ifs at q0 q1
  dsimp only at q0 q1
  split_ifs at q0 q1
  simp only [Except.ok.injEq, Prod.mk.injEq] at q0 q1
  have ev0 : evaluate ((s' sOpaqueMultiply).pts iPressure) 0 = 0 := by
    have h01 : ((s' sOpaqueMultiply).pts iPressure).xs 0 < ((s' sOpaqueMultiply).pts iPressure).xs 1 := by
      have a := q0.1
      have b := q1.1
      simp only [Int.toNat_natCast] at a b
      rw [a, b]; exact zero_lt_one
    have := evaluate_at ((s' sOpaqueMultiply).pts iPressure) (by omega) (by
      intro a b hab hb
      rw [n2] at hb
      rcases Nat.lt_or_ge a b with q | q
      · rw [show a = 0 by omega, show b = 1 by omega]; exact h01.le
      · rw [show a = b by omega]) 0 (by omega) (by omega) (fun _ => h01)
    have a := q0.1
    have b := q0.2
    simp only [Int.toNat_natCast] at a b
    rw [a, b] at this
    exact this
  refine le_of_eq ?_
  unfold calculate
  split_ifs
  · exact e0
  rw [hin, e0]
  have key : ∀ l : List Nat, (∀ j ∈ l, j < Settings.inputsCount) → l.foldl (fun result j =>
      if ((s' sOpaqueMultiply).pts j).n ≠ 0 then result + evaluate ((s' sOpaqueMultiply).pts j) (i j) else result) 0 = (0 : K) := by
    intro l
    induction l with
    | nil => intro _; rfl
    | cons j l ih =>
      intro hl
      rw [List.foldl_cons]
      have : (if ((s' sOpaqueMultiply).pts j).n ≠ 0 then (0 : K) + evaluate ((s' sOpaqueMultiply).pts j) (i j) else 0) = 0 := by
        by_cases hj : j = iPressure
        · rw [hj, hi, ev0]; simp
        · rw [hcurve _ hom j (hl j List.mem_cons_self) (fun q => hj (q.2.trans hpi))]
          simp
      rw [this]
      exact ih fun j hj => hl j (List.mem_cons_of_mem _ hj)
  exact key _ fun j hj => List.mem_range.mp hj

end

/-! ### Examples -/

namespace Demo

example : PowOne Engine.Demo.env := fun _ => rfl

/-- The brush whose opacity is the pressure needs pressure. -/
theorem fading_needs_pressure : NeedsPressure fading.settings := by
  intro i hi
  right
  have hi' : i 0 = 0 := hi
  show calculate (_ : Mapping ℚ) i ≤ 0
  simp [calculate, fading, sOpaqueMultiply, List.range_succ, evaluate, findSegment, hi']

/-- The pen hovers. -/
def hovering : List (Motion ℚ) :=
  [Engine.Demo.motion 60 10 0 (1 / 10), Engine.Demo.motion 63 10 0 (1 / 10), Engine.Demo.motion 66 10 (-1) (1 / 10)]

example : ∀ m ∈ hovering, Hovers m := by unfold Hovers; decide +kernel

example : fading.st.pressure = 0 := rfl

/-- Dabs are computed, but they are transparent, and the canvas stays empty. -/
example : Engine.Demo.look (fun r => (r.2.2.length, r.2.2.all fun a => a.opaque' = 0))
    (strokes (recordDabs Engine.Demo.env) 100 fading ([], []) hovering) = some (2, true) := by
  decide +kernel

example : observe fading ⟨0, 0, 0, 0⟩ hovering [(63, 10), (60, 10)] =
    some ([], [some ⟨0, 0, 0, 0⟩, some ⟨0, 0, 0, 0⟩]) := by
  decide +kernel

/-- A brush that does not look at the pressure does paint while the pen hovers. -/
example : ¬ NeedsPressure red.settings := by
  intro h
  rcases h (fun _ => 0) rfl with q | q
  · rw [red_value] at q; exact absurd q (by decide +kernel)
  · rw [red_value] at q; exact absurd q (by decide +kernel)

theorem constant_brush_paints_hovering :
    observe red ⟨0, 0, 0, 0⟩ hovering [(63, 10)] ≠ some ([], [some ⟨0, 0, 0, 0⟩]) := by
  decide +kernel

end Demo

end Verif.Painting
