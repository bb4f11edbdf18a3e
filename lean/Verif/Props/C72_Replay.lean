import Verif.Model.States
import Verif.Model.Brushes
import Verif.Lemmas.EngineTwin
import Verif.Spec.EngineDemo
import Mathlib.Tactic.NormNum

/-!
# C72 and C73: recording and replaying a stroke; brushes do not disturb each other
-/

namespace Verif.Engine
open Verif.Mask Verif.Color Verif.Spectral Verif.Map

section
variable {K R σ : Type} [Field K] [LinearOrder K]

/-! ### C72: the states as an array -/

theorem toList_ofList {l : List K} (h : l.length = 44) : (State.ofList l).toList = l := by
  have e : (State.ofList l).toList = (List.range 44).map (fun i => l.getD i 0) := rfl
  rw [e]
  refine List.ext_getElem (by simp [h]) (fun i h1 h2 => ?_)
  rw [List.getElem_map, List.getElem_range, List.getD_eq_getElem?_getD, List.getElem?_eq_getElem h2]
  rfl

theorem ofList_toList (st : State K) : State.ofList st.toList = st := rfl

theorem toList_length (st : State K) : st.toList.length = 44 := rfl

theorem statesCount_eq : Settings.statesCount = 44 := by decide

/-- **C72**: a state that was set is read back; nothing else of the brush changes. -/
theorem state_read_back {b b' : Brush K R} {i : Nat} {v : K} (h : setState b i v = .ok b') :
    getState b' i = .ok v ∧ (∀ j, j ≠ i → getState b' j = getState b j) ∧ b' = { b with st := b'.st } := by
  unfold setState at h
  by_cases hi : i < Settings.statesCount
  · rw [if_pos hi] at h
    have e := (Except.ok.inj h).symm
    subst e
    have hl : (b.st.toList.set i v).length = 44 := by rw [List.length_set]; rfl
    refine ⟨?_, fun j hj => ?_, rfl⟩
    · unfold getState
      dsimp only
      rw [if_pos hi, toList_ofList hl, List.getD_eq_getElem?_getD,
        List.getElem?_set_self (by rw [toList_length]; rw [statesCount_eq] at hi; exact hi)]
      rfl
    · unfold getState
      dsimp only
      rw [toList_ofList hl, List.getD_eq_getElem?_getD, List.getElem?_set_ne (Ne.symm hj), List.getD_eq_getElem?_getD]
  · rw [if_neg hi] at h; cases h

/-- Brushes with the same answers have the same states. -/
theorem states_determined {b b' : Brush K R} (h : ∀ i < Settings.statesCount, getState b' i = getState b i) :
    b'.st = b.st := by
  have hl : b'.st.toList = b.st.toList := by
    refine List.ext_getElem (by rw [toList_length, toList_length]) (fun i h1 h2 => ?_)
    rw [toList_length] at h1
    have hi : i < Settings.statesCount := by rw [statesCount_eq]; exact h1
    have k := h i hi
    unfold getState at k
    rw [if_pos hi, if_pos hi] at k
    have k := Except.ok.inj k
    rw [List.getD_eq_getElem?_getD, List.getD_eq_getElem?_getD, List.getElem?_eq_getElem (by rw [toList_length]; exact h1),
      List.getElem?_eq_getElem (by rw [toList_length]; exact h1)] at k
    exact k
  rw [← ofList_toList b'.st, hl, ofList_toList]

/-- What a program does to replay: it sets all the states it has recorded, in order. -/
def restore (recorded : Nat → K) (b : Brush K R) : Nat → Except Fault (Brush K R)
  | 0 => .ok b
  | n + 1 => do
    let b ← restore recorded b n
    setState b n (recorded n)

theorem restore_ok (recorded : Nat → K) (b : Brush K R) (n : Nat) (hn : n ≤ Settings.statesCount) :
    ∃ b', restore recorded b n = .ok b' ∧ (∀ i < n, getState b' i = .ok (recorded i)) ∧ b' = { b with st := b'.st } := by
  induction n with
  | zero => exact ⟨b, rfl, fun i hi => absurd hi (Nat.not_lt_zero i), rfl⟩
  | succ n ih =>
    obtain ⟨b1, h1, h2, h3⟩ := ih (Nat.le_of_succ_le hn)
    obtain ⟨b2, hs⟩ : ∃ b2, setState b1 n (recorded n) = .ok b2 := ⟨_, if_pos hn⟩
    obtain ⟨k1, k2, k3⟩ := state_read_back hs
    refine ⟨b2, ?_, fun i hi => ?_, ?_⟩
    · unfold restore
      rw [h1]
      exact hs
    · rcases Nat.lt_succ_iff_lt_or_eq.mp hi with q | q
      · rw [k2 i (Nat.ne_of_lt q)]
        exact h2 i q
      · subst q
        exact k1
    · rw [k3, h3]

variable [IsStrictOrderedRing K] [FloorRing K]

/-- **C72**, partial. A brush `b` is recorded by reading all its states. Setting them in a brush `b'` with the same settings
makes it paint the same strokes as `b`, if nothing in the settings depends on chance or the grid map, if the brushes have the
same smudge buckets, and if the same reset is pending. -/
theorem replay_partial (e : Env K R σ) (fuel : Nat) {b b' b'' : Brush K R} (recorded : Nat → K)
    (hr : ∀ i < Settings.statesCount, getState b i = .ok (recorded i))
    (hset : restore recorded b' Settings.statesCount = .ok b'')
    (hs : b'.settings = b.settings) (hb : b'.buckets = b.buckets) (hq : b'.resetRequested = b.resetRequested)
    (quiet : Quiet b.settings) (paint : PaintOk b.settings) (k : b.skip ≤ 1 / 1000) (k' : b'.skip ≤ 1 / 1000)
    (surf : σ) (ms : List (Motion K)) :
    (strokes e fuel b'' surf ms).map Prod.snd = (strokes e fuel b surf ms).map Prod.snd := by
  obtain ⟨c, h1, h2, h3⟩ := restore_ok recorded b' _ (le_refl _)
  rw [h1] at hset
  have e1 := Except.ok.inj hset
  subst e1
  have hst : c.st = b.st := states_determined fun i hi => by rw [h2 i hi, hr i hi]
  have ht : Twin true b c := by
    refine ⟨paint, ⟨b'.total, b'.idle, b'.random, b'.skip, b'.skipX, b'.skipY, b'.skippedTime, b'.rng, b'.mix,
      b.st.gridmapX, b.st.gridmapY⟩, b'.vals, ?_, .inr ⟨rfl, quiet, k, k'⟩, fun h => by cases h⟩
    rw [h3, hst]
    unfold veil
    dsimp only
    rw [hs, hb, hq]
  have := strokes_twin (e := e) fuel ms surf ht
  revert this
  generalize strokes e fuel b surf ms = x
  generalize strokes e fuel c surf ms = x'
  rintro (f | h)
  · rfl
  · rename_i h
    exact congrArg Except.ok h.1

/-! ### C73: several brushes -/

/-- The events for brush `i`. -/
def eventsFor (i : Nat) (ms : List (Nat × Motion K)) : List (Motion K) := (ms.filter fun p => p.1 = i).map Prod.snd

/-- **C73**, partial. However the events of any number of brushes are interleaved: what a brush has painted is what it would
have painted alone, if its pigment mixing is constant or never negative. Nothing is assumed about the other brushes. -/
theorem brushes_independent_partial (e : Env K R σ) (fuel : Nat) (i : Nat) (ms : List (Nat × Motion K)) :
    ∀ {d d' : Table K R σ}, PaintOk (d.brush i).settings → d.run e fuel ms = .ok d' →
      (strokes e fuel (d.brush i) (d.surf i) (eventsFor i ms)).map Prod.snd = .ok (d'.surf i) := by
  have key : ∀ (ms : List (Nat × Motion K)) {d d' : Table K R σ} (b : Brush K R), Twin false b (d.brush i) →
      d.run e fuel ms = .ok d' →
      (strokes e fuel b (d.surf i) (eventsFor i ms)).map Prod.snd = .ok (d'.surf i) := by
    intro ms
    induction ms with
    | nil =>
      intro d d' b _ h
      have := Except.ok.inj (show (Except.ok d : Except Fault _) = .ok d' from h)
      subst this
      rfl
    | cons p ms ih =>
      intro d d' b ht h
      obtain ⟨j, m⟩ := p
      unfold Table.run at h
      cases hd : d.stroke e fuel j m with
      | error f => rw [hd] at h; cases h
      | ok d1 =>
        rw [hd] at h
        have h : d1.run e fuel ms = .ok d' := h
        unfold Table.stroke at hd
        cases hst : strokeTo e fuel { d.brush j with mix := d.mix } (d.surf j) m with
        | error f => rw [hst] at hd; cases hd
        | ok r =>
          rw [hst] at hd
          have hd := (Except.ok.inj (show (Except.ok (Table.mk (fun k => if k = j then r.2.1 else d.brush k)
            (fun k => if k = j then r.2.2 else d.surf k) r.2.1.mix) : Except Fault (Table K R σ)) = .ok d1 from hd)).symm
          by_cases hj : j = i
          · subst hj
            have e1 : eventsFor j ((j, m) :: ms) = m :: eventsFor j ms := by
              unfold eventsFor
              rw [List.filter_cons_of_pos (by simp)]
              rfl
            rw [e1]
            unfold strokes
            have ht' : Twin false b { d.brush j with mix := d.mix } := by
              obtain ⟨po, m', hm⟩ := Twin.of_false.mp ht
              exact Twin.of_false.mpr ⟨po, d.mix, by rw [hm]⟩
            have hk := strokeTo_twin (e := e) ht' fuel (d.surf j) m
            rw [hst] at hk
            revert hk
            generalize strokeTo e fuel b (d.surf j) m = x
            intro hk
            cases hk with
            | ok hk =>
              rename_i r0
              obtain ⟨k1, k2, -⟩ := hk
              have e2 : d1.surf j = r.2.2 := by rw [hd]; exact if_pos rfl
              have e3 : d1.brush j = r.2.1 := by rw [hd]; exact if_pos rfl
              have := ih r0.2.1 (d := d1) (by rw [e3]; exact k2) h
              rw [e2, k1] at this
              exact this
          · have e1 : eventsFor i ((j, m) :: ms) = eventsFor i ms := by
              unfold eventsFor
              rw [List.filter_cons_of_neg (by simpa using hj)]
            have e2 : d1.surf i = d.surf i := by rw [hd]; exact if_neg (Ne.symm hj)
            have e3 : d1.brush i = d.brush i := by rw [hd]; exact if_neg (Ne.symm hj)
            rw [e1]
            have := ih b (d := d1) (by rw [e3]; exact ht) h
            rw [e2] at this
            exact this
  intro d d' po h
  exact key ms (d.brush i) (Twin.of_false.mpr ⟨po, (d.brush i).mix, rfl⟩) h

end

namespace Demo

/-- The numbers of `gauss` differ from call to call. -/
def dice : Env ℚ Nat (List (Dab.Args ℚ)) := { env with gauss := fun r => ((r % 5 : Nat), r + 1) }

/-- The beginning of a stroke. -/
def before : List (Motion ℚ) :=
  [motion 60 10 (1 / 2) (1 / 10), motion 61 10 (1 / 2) (1 / 10), motion 66 10 (1 / 2) (1 / 10)]

/-- And the rest. -/
def after : List (Motion ℚ) := [motion 70 10 (1 / 2) (1 / 10)]

/-- Two brushes with the same settings. The states of the first are recorded after `first`; the second has painted `other`,
then the recorded states are set. The dabs of both for `after`. -/
def replay (e : Env ℚ Nat (List (Dab.Args ℚ))) (b : Brush ℚ Nat) (first other : List (Motion ℚ)) :
    Except Fault (List (Dab.Args ℚ) × List (Dab.Args ℚ)) := do
  let r ← strokes e 50 b [] first
  let r' ← strokes e 50 b [] other
  let c ← restore (fun i => r.1.st.toList.getD i 0) r'.1 Settings.statesCount
  let x ← strokes e 50 r.1 [] after
  let y ← strokes e 50 c [] after
  return (x.2, y.2)

/-- A brush without dynamics has the base values. -/
theorem brush_value (id : Nat) (i : Nat → ℚ) : calculate (brush.settings id) i = (brush.settings id).base := rfl

/-- The default brush is quiet. -/
theorem brush_quiet : Quiet brush.settings := by
  refine ⟨?_, fun _ => ?_, fun _ => ?_, fun _ _ _ _ => rfl⟩
  · decide +kernel
  · rw [brush_value]; decide +kernel
  · rw [brush_value]; decide +kernel

example : Quiet brush.settings ∧ PaintOk brush.settings := ⟨brush_quiet, .inl rfl⟩

/-- Three dabs are replayed. -/
example : look (fun p => (p.1.map (·.x), p.2.map (·.x))) (replay env brush before (before.take 1)) =
    some ([67, 137 / 2, 70], [67, 137 / 2, 70]) := by decide +kernel

/-- **C72 fails** for a brush that was just created: the reset that is pending throws the states away, and nothing is drawn. -/
theorem replay_on_new_brush_lost : look (fun p => (p.1.map (·.x), p.2.map (·.x))) (replay env brush before []) =
    some ([67, 137 / 2, 70], []) := by decide +kernel

/-- **C72 fails** for a brush with random offsets: the random generator is not part of the states. -/
theorem replay_random_fails : look (fun p => decide (p.1.map (·.x) = p.2.map (·.x)))
    (replay dice (set brush sOffsetByRandom 1) before (before.take 1)) = some false := by decide +kernel

/-- A mapping of the pressure to `v` times the pressure. -/
def slope (v : ℚ) : Mapping ℚ where
  base := 0
  inputs := 18
  used := 1
  pts j := if j = 0 then ⟨fun k => if k = 0 then 0 else 1, fun k => if k = 0 then 0 else v, 2⟩
    else ⟨fun _ => 0, fun _ => 0, 0⟩

/-- A smudging brush, its pigment mixing is `v` times the pressure. -/
def mixing (v : ℚ) : Brush ℚ Nat :=
  let b := set (set (set brush sSmudge (1 / 2)) sSmudgeLength (1 / 2)) sColorV 1
  { b with settings := fun i => if i = sPaintMode then slope v else b.settings i }

/-- Brush 0 as given, brush 1 mixes additively. -/
def table (v : ℚ) : Table ℚ Nat (List (Dab.Args ℚ)) :=
  ⟨fun i => if i = 0 then mixing v else mixing 0, fun _ => [], ⟨0, 0, 0, 0⟩⟩

/-- The colours that brush 0 paints. -/
def colours (v : ℚ) (ms : List (Nat × Motion ℚ)) : Option (List (ℚ × ℚ)) :=
  look (fun d => (d.surf 0).map (fun a => (a.colorR, a.colorG))) ((table v).run env 50 ms)

/-- **C73 fails** for a brush with negative pigment mixing: after another brush has painted, it paints other colours. -/
theorem brushes_disturb : (colours (-1) (before.map fun m => (0, m))).isSome = true ∧
    (colours (-1) (before.map (fun m => (1, m)) ++ before.map fun m => (0, m))).isSome = true ∧
    colours (-1) (before.map (fun m => (1, m)) ++ before.map fun m => (0, m)) ≠
      colours (-1) (before.map fun m => (0, m)) := by decide +kernel

/-- With mixing 0, which is not negative, two brushes painting in turns do not disturb each other. -/
example : colours 0 [(0, motion 60 10 (1 / 2) (1 / 10)), (1, motion 0 0 1 (1 / 10)), (0, motion 61 10 (1 / 2) (1 / 10)),
      (1, motion 5 0 1 (1 / 10)), (1, motion 9 0 1 (1 / 10)), (0, motion 66 10 (1 / 2) (1 / 10))] =
    colours 0 (before.map fun m => (0, m)) ∧ (colours 0 (before.map fun m => (0, m))).map List.length = some 3 := by
  decide +kernel

example : PaintOk (mixing 0).settings := by
  refine .inr fun i => le_of_eq ?_
  have : (mixing 0).settings sPaintMode = slope 0 := rfl
  rw [this]
  simp [calculate, slope, List.range_succ, evaluate]

end Demo

end Verif.Engine
