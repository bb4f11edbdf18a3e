import Verif.Lemmas.Load
import Verif.Spec.SettingsApi

/-!
# C83: what is set is what is read

An editor changes the settings of a brush one call at a time and shows what it reads back. Whatever calls came before, each
getter returns what the last call about the same thing set, and no call changes anything else. A call fails exactly when its
arguments are invalid.
-/

namespace Verif.Load
open Verif.Map Verif.Settings

section
variable {K : Type} [Field K] [LinearOrder K] [IsStrictOrderedRing K]

/-- What a brush that the calls made holds; `mem` is what the memory held before. -/
structure Holds (mem : Nat → Nat → Points K) (cs : List (Call K)) (id : Nat) (m : Mapping K) : Prop where
  inv : Inv m
  inputs : m.inputs = inputsCount
  base : m.base = (Spec.Settings.bases cs id).getLast?.getD 0
  count : ∀ input, (m.pts input).n = (Spec.Settings.counts cs id input).getLast?.getD 0
  point : ∀ input k, ((m.pts input).xs k, (m.pts input).ys k) =
    (Spec.Settings.points cs id input k).getLast?.getD ((mem id input).xs k, (mem id input).ys k)

omit [IsStrictOrderedRing K] in
theorem setPoint_eq {m m' : Mapping K} {input : Nat} {index : Int} {x y : K} (h : setPoint m input index x y = .ok m') :
    0 ≤ index ∧ m' = update m input { m.pts input with
      xs := fun i => if i = index.toNat then x else (m.pts input).xs i
      ys := fun i => if i = index.toNat then y else (m.pts input).ys i } := by
  unfold setPoint at h
  dsimp only at h
  by_cases h1 : ¬ (0 ≤ (input : Int) ∧ (input : Int) < m.inputs)
  · rw [if_pos h1] at h; cases h
  by_cases h2 : ¬ (0 ≤ index ∧ index < 64)
  · rw [if_neg h1, if_pos h2] at h; cases h
  rw [if_neg h1, if_neg h2] at h
  split_ifs at h
  cases h
  exact ⟨(not_not.mp h2).1, rfl⟩

omit [IsStrictOrderedRing K] in
theorem setN_eq {m m' : Mapping K} {input : Nat} {n : Int} (h : setN m input n = .ok m') :
    m'.base = m.base ∧ m'.inputs = m.inputs ∧ m'.pts = (update m input { m.pts input with n := n.toNat }).pts := by
  unfold setN at h
  dsimp only at h
  split_ifs at h
  all_goals
    cases h
    exact ⟨rfl, rfl, rfl⟩

theorem holds_step {mem : Nat → Nat → Points K} {cs : List (Call K)} {b b' : Brush K} {c : Call K}
    (hb : ∀ id < settingsCount, Holds mem cs id (b id)) (h : c.run b = .ok b') :
    ∀ id < settingsCount, Holds mem (cs ++ [c]) id (b' id) := by
  intro id hid
  have hb := hb id hid
  cases c with
  | base i v =>
    unfold Call.run setBaseValue at h
    dsimp only at h
    by_cases hi : ¬ i < settingsCount
    · rw [if_pos hi] at h; cases h
    rw [if_neg hi] at h
    cases h
    have f2 : ∀ input, Spec.Settings.counts (cs ++ [.base i v]) id input = Spec.Settings.counts cs id input := by
      intro input; simp [Spec.Settings.counts]
    have f3 : ∀ input k, Spec.Settings.points (cs ++ [.base i v]) id input k = Spec.Settings.points cs id input k := by
      intro input k; simp [Spec.Settings.points]
    by_cases e : id = i
    · subst e
      rw [setMapping_same]
      have f1 : Spec.Settings.bases (cs ++ [.base id v]) id = Spec.Settings.bases cs id ++ [v] := by
        simp [Spec.Settings.bases]
      refine ⟨⟨hb.inv.used, hb.inv.size⟩, hb.inputs, ?_, fun input => ?_, fun input k => ?_⟩
      · rw [f1]; simp [setBase]
      · rw [f2]; exact hb.count input
      · rw [f3]; exact hb.point input k
    · rw [setMapping_other _ _ e]
      have f1 : Spec.Settings.bases (cs ++ [.base i v]) id = Spec.Settings.bases cs id := by
        simp [Spec.Settings.bases, Ne.symm e]
      refine ⟨hb.inv, hb.inputs, ?_, fun input => ?_, fun input k => ?_⟩
      · rw [f1]; exact hb.base
      · rw [f2]; exact hb.count input
      · rw [f3]; exact hb.point input k
  | count i j n =>
    unfold Call.run setMappingN at h
    dsimp only at h
    by_cases hi : ¬ i < settingsCount
    · rw [if_pos hi] at h; cases h
    rw [if_neg hi] at h
    cases hm : Map.setN (b i) j n with
    | error e => simp only [hm, bind, Except.bind, pure, Except.pure, reduceCtorEq] at h
    | ok m' =>
      simp only [hm, bind, Except.bind, pure, Except.pure, Except.ok.injEq] at h
      subst h
      have f1 : Spec.Settings.bases (cs ++ [.count i j n]) id = Spec.Settings.bases cs id := by
        simp [Spec.Settings.bases]
      have f3 : ∀ input k, Spec.Settings.points (cs ++ [.count i j n]) id input k = Spec.Settings.points cs id input k := by
        intro input k; simp [Spec.Settings.points]
      by_cases e : id = i
      · subst e
        rw [setMapping_same]
        obtain ⟨e1, e2, e3⟩ := setN_eq hm
        refine ⟨(setN_inv hb.inv hm).1, e2.trans hb.inputs, ?_, fun input => ?_, fun input k => ?_⟩
        · rw [f1, e1]; exact hb.base
        · rw [e3]
          by_cases ej : input = j
          · subst ej
            simp [update, Spec.Settings.counts]
          · have : Spec.Settings.counts (cs ++ [.count id j n]) id input = Spec.Settings.counts cs id input := by
              simp [Spec.Settings.counts, Ne.symm ej]
            rw [this, ← hb.count input]
            simp [update, ej]
        · rw [e3, f3, ← hb.point input k]
          by_cases ej : input = j
          · subst ej; simp [update]
          · simp [update, ej]
      · rw [setMapping_other _ _ e]
        refine ⟨hb.inv, hb.inputs, ?_, fun input => ?_, fun input k => ?_⟩
        · rw [f1]; exact hb.base
        · have : Spec.Settings.counts (cs ++ [.count i j n]) id input = Spec.Settings.counts cs id input := by
            simp [Spec.Settings.counts, Ne.symm e]
          rw [this]; exact hb.count input
        · rw [f3]; exact hb.point input k
  | point i j l x y =>
    unfold Call.run setMappingPoint at h
    dsimp only at h
    by_cases hi : ¬ i < settingsCount
    · rw [if_pos hi] at h; cases h
    rw [if_neg hi] at h
    cases hm : Map.setPoint (b i) j l x y with
    | error e => simp only [hm, bind, Except.bind, pure, Except.pure, reduceCtorEq] at h
    | ok m' =>
      simp only [hm, bind, Except.bind, pure, Except.pure, Except.ok.injEq] at h
      subst h
      have f1 : Spec.Settings.bases (cs ++ [.point i j l x y]) id = Spec.Settings.bases cs id := by
        simp [Spec.Settings.bases]
      have f2 : ∀ input, Spec.Settings.counts (cs ++ [.point i j l x y]) id input = Spec.Settings.counts cs id input := by
        intro input; simp [Spec.Settings.counts]
      by_cases e : id = i
      · subst e
        rw [setMapping_same]
        have hinv := (setPoint_inv hb.inv hm).1
        obtain ⟨e1, e2⟩ := setPoint_eq hm
        subst e2
        refine ⟨hinv, hb.inputs, ?_, fun input => ?_, fun input k => ?_⟩
        · rw [f1]; exact hb.base
        · rw [f2, ← hb.count input]
          by_cases ej : input = j
          · subst ej; simp [update]
          · simp [update, ej]
        · by_cases ej : input = j ∧ l = k
          · obtain ⟨rfl, rfl⟩ := ej
            simp [update, Spec.Settings.points]
          · have : Spec.Settings.points (cs ++ [.point id j l x y]) id input k = Spec.Settings.points cs id input k := by
              simp only [Spec.Settings.points, List.filterMap_append, List.filterMap_cons, List.filterMap_nil]
              rw [if_neg (by rintro ⟨-, rfl, rfl⟩; exact ej ⟨rfl, rfl⟩), List.append_nil]
            rw [this, ← hb.point input k]
            by_cases ei : input = j
            · subst ei
              have : k ≠ l.toNat := by
                rintro rfl
                exact ej ⟨rfl, (Int.toNat_of_nonneg e1).symm⟩
              simp [update, this]
            · simp [update, ei]
      · rw [setMapping_other _ _ e]
        refine ⟨hb.inv, hb.inputs, ?_, fun input => ?_, fun input k => ?_⟩
        · rw [f1]; exact hb.base
        · rw [f2]; exact hb.count input
        · have : Spec.Settings.points (cs ++ [.point i j l x y]) id input k = Spec.Settings.points cs id input k := by
            simp [Spec.Settings.points, Ne.symm e]
          rw [this]; exact hb.point input k

theorem holds_new (mem : Nat → Nat → Points K) (id : Nat) : Holds mem [] id (newBrush mem id) :=
  ⟨new_inv _ _, rfl, rfl, fun _ => rfl, fun _ _ => rfl⟩

theorem holds_run (mem : Nat → Nat → Points K) (cs : List (Call K)) : ∀ {b : Brush K},
    runCalls (newBrush mem) cs = .ok b → ∀ id < settingsCount, Holds mem cs id (b id) := by
  induction cs using List.reverseRecOn with
  | nil =>
    intro b h
    cases h
    exact fun id _ => holds_new mem id
  | append_singleton cs c ih =>
    intro b h
    unfold runCalls at h
    rw [List.foldlM_append] at h
    cases hm : cs.foldlM Call.run (newBrush mem) with
    | error e => simp only [hm, bind, Except.bind, reduceCtorEq] at h
    | ok b1 =>
      simp only [hm, bind, Except.bind, List.foldlM_cons, List.foldlM_nil, pure, Except.pure] at h
      refine holds_step (ih hm) (b' := b) ?_
      cases hr : c.run b1 with
      | error e => simp only [hr, reduceCtorEq] at h
      | ok b2 => simp only [hr, Except.ok.injEq] at h; rw [h]

/-- **C83** After any calls each getter returns what was set last: the base value (0 if none was set), the number of control
points of a curve (0 if none was set), and the control points that exist. -/
theorem reads_what_was_set (mem : Nat → Nat → Points K) (cs : List (Call K)) {b : Brush K}
    (h : runCalls (newBrush mem) cs = .ok b) {id input : Nat} (hid : id < settingsCount) (hin : input < inputsCount) :
    getBaseValue b id = .ok ((Spec.Settings.bases cs id).getLast?.getD 0) ∧
    getMappingN b id input = .ok ((Spec.Settings.counts cs id input).getLast?.getD 0) ∧
    ∀ k p, (k : Nat) < (Spec.Settings.counts cs id input).getLast?.getD 0 →
      (Spec.Settings.points cs id input k).getLast? = some p → getMappingPoint b id input k = .ok p := by
  have H := holds_run mem cs h id hid
  refine ⟨?_, ?_, fun k p hk hp => ?_⟩
  · unfold getBaseValue
    rw [if_neg (not_not.mpr hid), H.base]
  · unfold getMappingN Map.getN
    rw [if_neg (not_not.mpr hid), if_neg (by rw [H.inputs]; omega), Int.toNat_natCast, H.count]
  · rw [← H.count input] at hk
    have h64 := (H.inv.size input (by rw [H.inputs]; exact hin)).2
    unfold getMappingPoint Map.getPoint
    rw [if_neg (not_not.mpr hid), if_neg (by rw [H.inputs]; omega), if_neg (by omega)]
    simp only [Int.toNat_natCast]
    rw [if_neg (by omega), H.point, hp]
    rfl

/-- **C83** A setting is reported constant if none of its curves has points, and the number of inputs used is that of the curves
with points. -/
theorem reports_used_inputs (mem : Nat → Nat → Points K) (cs : List (Call K)) {b : Brush K}
    (h : runCalls (newBrush mem) cs = .ok b) {id : Nat} (hid : id < settingsCount) :
    getInputsUsedN b id = .ok (((List.range inputsCount).filter fun input =>
      (Spec.Settings.counts cs id input).getLast?.getD 0 ≠ 0).length : Int) ∧
    (isConstant b id = .ok true ↔ ∀ input < inputsCount, (Spec.Settings.counts cs id input).getLast?.getD 0 = 0) := by
  have H := holds_run mem cs h id hid
  constructor
  · unfold getInputsUsedN
    rw [if_neg (not_not.mpr hid), H.inv.used, H.inputs]
    simp only [H.count]
  · unfold isConstant
    rw [if_neg (not_not.mpr hid), Except.ok.injEq, constant_iff H.inv]
    unfold NoCurve
    rw [H.inputs]
    simp only [H.count]

/-- When a call is valid, after the calls `cs`. -/
def CallValid (cs : List (Call K)) (mem : Nat → Nat → Points K) : Call K → Prop
  | .base id _ => id < settingsCount
  | .count id input n => id < settingsCount ∧ input < inputsCount ∧ 0 ≤ n ∧ n ≤ 64 ∧ n ≠ 1
  | .point id input index x _ => id < settingsCount ∧ input < inputsCount ∧ 0 ≤ index ∧
      index.toNat < (Spec.Settings.counts cs id input).getLast?.getD 0 ∧
      (0 < index → ((Spec.Settings.points cs id input (index.toNat - 1)).getLast?.map Prod.fst).getD
        ((mem id input).xs (index.toNat - 1)) ≤ x)

/-- **C83** A call is accepted exactly when its arguments are valid: the setting and the input exist, a curve has no point, or
2 to 64 of them, the point exists and does not lie to the left of the one before. -/
theorem accepts_what_is_valid (mem : Nat → Nat → Points K) (cs : List (Call K)) {b : Brush K}
    (h : runCalls (newBrush mem) cs = .ok b) (c : Call K) : (∃ b', c.run b = .ok b') ↔ CallValid cs mem c := by
  have H := holds_run mem cs h
  cases c with
  | base i v =>
    unfold Call.run setBaseValue CallValid
    dsimp only
    by_cases hi : i < settingsCount
    · rw [if_neg (not_not.mpr hi)]
      exact ⟨fun _ => hi, fun _ => ⟨_, rfl⟩⟩
    · rw [if_pos hi]
      exact ⟨fun ⟨_, h⟩ => (by cases h), fun h => absurd h hi⟩
  | count i j n =>
    unfold Call.run setMappingN CallValid
    dsimp only
    by_cases hi : i < settingsCount
    · rw [if_neg (not_not.mpr hi)]
      have Hi := H i hi
      constructor
      · rintro ⟨b', h⟩
        cases hm : Map.setN (b i) j n with
        | error e => simp only [hm, bind, Except.bind, pure, Except.pure, reduceCtorEq] at h
        | ok m' =>
          unfold setN at hm
          rw [Hi.inputs] at hm
          by_cases c1 : ¬ (0 ≤ (j : Int) ∧ (j : Int) < inputsCount)
          · rw [if_pos c1] at hm; cases hm
          by_cases c2 : ¬ (0 ≤ n ∧ n ≤ 64)
          · rw [if_neg c1, if_pos c2] at hm; cases hm
          by_cases c3 : n = 1
          · rw [if_neg c1, if_neg c2, if_pos c3] at hm; cases hm
          exact ⟨hi, by omega, by omega, by omega, c3⟩
      · rintro ⟨-, h1, h2, h3, h4⟩
        obtain ⟨m', hm⟩ := setN_ok Hi.inv (input := j) (by rw [Hi.inputs]; exact h1) ⟨h2, h3⟩ h4
        rw [hm]
        exact ⟨_, rfl⟩
    · rw [if_pos hi]
      exact ⟨fun ⟨_, h⟩ => (by cases h), fun h => absurd h.1 hi⟩
  | point i j l x y =>
    unfold Call.run setMappingPoint CallValid
    dsimp only
    by_cases hi : i < settingsCount
    · rw [if_neg (not_not.mpr hi)]
      have Hi := H i hi
      have hx : (((Spec.Settings.points cs i j (l.toNat - 1)).getLast?.map Prod.fst).getD
          ((mem i j).xs (l.toNat - 1))) = ((b i).pts j).xs (l.toNat - 1) := by
        have := congrArg Prod.fst (Hi.point j (l.toNat - 1))
        rw [show ((b i).pts j).xs (l.toNat - 1) = _ from this]
        cases (Spec.Settings.points cs i j (l.toNat - 1)).getLast? <;> rfl
      rw [hx, ← Hi.count j]
      have h64 := Hi.inv.size j
      rw [Hi.inputs] at h64
      have key : (∃ m', Map.setPoint (b i) j l x y = .ok m') ↔ j < inputsCount ∧ 0 ≤ l ∧ l.toNat < ((b i).pts j).n ∧
          (0 < l → ((b i).pts j).xs (l.toNat - 1) ≤ x) := by
        unfold setPoint
        rw [Hi.inputs]
        simp only [Int.toNat_natCast]
        constructor
        · rintro ⟨m', hm⟩
          by_cases c1 : ¬ (0 ≤ (j : Int) ∧ (j : Int) < inputsCount)
          · rw [if_pos c1] at hm; cases hm
          by_cases c2 : ¬ (0 ≤ l ∧ l < 64)
          · rw [if_neg c1, if_pos c2] at hm; cases hm
          by_cases c3 : ¬ l < (((b i).pts j).n : Int)
          · rw [if_neg c1, if_neg c2, if_pos c3] at hm; cases hm
          by_cases c4 : 0 < l ∧ ¬ ((b i).pts j).xs (l.toNat - 1) ≤ x
          · rw [if_neg c1, if_neg c2, if_neg c3, if_pos c4] at hm; cases hm
          exact ⟨by omega, by omega, by omega, fun h0 => not_not.mp fun hn => c4 ⟨h0, hn⟩⟩
        · rintro ⟨h1, h2, h3, h4⟩
          have := (h64 h1).2
          rw [if_neg (by omega), if_neg (by omega), if_neg (by omega), if_neg (fun c => c.2 (h4 c.1))]
          exact ⟨_, rfl⟩
      constructor
      · rintro ⟨b', h⟩
        cases hm : Map.setPoint (b i) j l x y with
        | error e => simp only [hm, bind, Except.bind, pure, Except.pure, reduceCtorEq] at h
        | ok m' => exact ⟨hi, key.mp ⟨m', hm⟩⟩
      · rintro ⟨-, h1⟩
        obtain ⟨m', hm⟩ := key.mpr h1
        rw [hm]
        exact ⟨_, rfl⟩
    · rw [if_pos hi]
      exact ⟨fun ⟨_, h⟩ => (by cases h), fun h => absurd h.1 hi⟩

/-- **C83** Only `get_mapping_n` does not check its setting: it reads past the table of settings where the other functions fail
an assertion. -/
theorem count_is_read_unchecked (b : Brush K) (id input : Nat) (h : settingsCount ≤ id) :
    getMappingN b id input = .error .outOfBounds ∧ getBaseValue b id = .error .assertFail ∧
    isConstant b id = .error .assertFail ∧ getInputsUsedN b id = .error .assertFail ∧
    getMappingPoint b id input 0 = .error .assertFail := by
  unfold getMappingN getBaseValue isConstant getInputsUsedN getMappingPoint
  simp only [if_pos (show ¬ id < settingsCount by omega), and_self]

end

/-- An editor gives the radius a curve over pressure, enlarges it, and moves a point. -/
def sampleCalls : List (Call ℚ) :=
  [.base 3 2, .count 3 0 2, .point 3 0 0 0 0, .point 3 0 1 1 5, .base 0 1, .count 3 0 3, .point 3 0 2 2 7, .base 3 (5 / 2),
    .point 3 0 1 (1 / 2) 6]

def sampleMem : Nat → Nat → Points ℚ := fun _ _ => ⟨fun _ => 99, fun _ => 99, 0⟩

example : (match runCalls (newBrush sampleMem) sampleCalls with
    | .error _ => none
    | .ok b => some [(getBaseValue b 3).toOption, (getBaseValue b 0).toOption, (getBaseValue b 7).toOption]) =
    some [some (5 / 2), some 1, some 0] := by decide +kernel

example : (match runCalls (newBrush sampleMem) sampleCalls with
    | .error _ => none
    | .ok b => some ([(getMappingN b 3 0).toOption, (getMappingN b 3 1).toOption], (getMappingPoint b 3 0 1).toOption)) =
    some ([some 3, some 0], some (1 / 2, 6)) := by decide +kernel

example : (match runCalls (newBrush sampleMem) sampleCalls with
    | .error _ => none
    | .ok b => some ((getInputsUsedN b 3).toOption, (isConstant b 0).toOption)) = some (some 1, some true) := by
  decide +kernel

/-- **C83 needs** that a point was set: a point that exists but was never set is read from memory that was never written. -/
example : (match runCalls (newBrush sampleMem) [.count 3 0 2] with
    | .error _ => none
    | .ok b => (getMappingPoint b 3 0 0).toOption) = some (99, 99) := by decide +kernel

end Verif.Load
