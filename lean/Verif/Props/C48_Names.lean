import Verif.Model.Settings

/-!
# C48: names of settings, inputs and states
-/

namespace Verif.Settings

/-- The C names, in the order of the ids. -/
def settingNames : List String := settings.map (·.cname)
def inputNames : List String := inputs.map (·.cname)

theorem lookup_spec (name : String) (l : List String) : ∀ i : Nat,
    (name ∉ l → lookup name i l = -1) ∧
    (∀ k, lookup name i l = k → k ≠ -1 → ∃ j : Nat, k = i + j ∧ l[j]? = some name) ∧
    (l.Nodup → ∀ j : Nat, l[j]? = some name → lookup name i l = i + j) := by
  induction l with
  | nil =>
    intro i
    refine ⟨fun _ => rfl, ?_, ?_⟩
    · intro k h hk
      exact absurd h.symm hk
    · intro _ j hj
      simp at hj
  | cons n l ih =>
    intro i
    obtain ⟨h1, h2, h3⟩ := ih (i + 1)
    unfold lookup
    by_cases hn : n = name
    · rw [if_pos hn]
      refine ⟨fun h => absurd (by simp [hn]) h, ?_, ?_⟩
      · intro k hk _
        exact ⟨0, by simp [← hk], by simp [hn]⟩
      · intro hd j hj
        cases j with
        | zero => simp
        | succ j =>
          exfalso
          rw [List.nodup_cons] at hd
          apply hd.1
          rw [hn]
          exact List.mem_of_getElem? (by simpa using hj)
    · rw [if_neg hn]
      refine ⟨fun h => h1 (fun h' => h (by simp [h'])), ?_, ?_⟩
      · intro k hk hk'
        obtain ⟨j, e, hj⟩ := h2 k hk hk'
        exact ⟨j + 1, by push_cast at *; omega, by simpa using hj⟩
      · intro hd j hj
        rw [List.nodup_cons] at hd
        cases j with
        | zero => simp at hj; exact absurd hj hn
        | succ j =>
          have := h3 hd.2 j (by simpa using hj)
          rw [this]
          push_cast
          omega

theorem settingNames_nodup : settingNames.Nodup := by decide +kernel
theorem inputNames_nodup : inputNames.Nodup := by decide +kernel

/-- **C48** The name of every setting is looked up to its id. -/
theorem setting_from_its_name (id : Nat) (name : String) (h : settingNames[id]? = some name) :
    settingFromCname name = id := by
  have := (lookup_spec name settingNames 0).2.2 settingNames_nodup id h
  exact this.trans (by simp)

/-- **C48** Only the name of a setting is looked up to an id. -/
theorem setting_name_of_id (name : String) (id : Int) (h : settingFromCname name = id) (h0 : id ≠ -1) :
    ∃ k : Nat, id = k ∧ settingNames[k]? = some name := by
  obtain ⟨j, e, hj⟩ := (lookup_spec name settingNames 0).2.1 id h h0
  exact ⟨j, by omega, hj⟩

/-- **C48** An unknown setting name gives an id that the range check of every caller refuses. -/
theorem unknown_setting (name : String) (h : name ∉ settingNames) :
    settingFromCname name = -1 ∧ settingsCount ≤ asUnsigned (settingFromCname name) := by
  have := (lookup_spec name settingNames 0).1 h
  refine ⟨this, ?_⟩
  have e : settingFromCname name = -1 := this
  rw [e]
  decide

/-- **C48** The name of every input is looked up to its id. -/
theorem input_from_its_name (id : Nat) (name : String) (h : inputNames[id]? = some name) :
    inputFromCname name = id := by
  have := (lookup_spec name inputNames 0).2.2 inputNames_nodup id h
  exact this.trans (by simp)

/-- **C48** Only the name of an input is looked up to an id. -/
theorem input_name_of_id (name : String) (id : Int) (h : inputFromCname name = id) (h0 : id ≠ -1) :
    ∃ k : Nat, id = k ∧ inputNames[k]? = some name := by
  obtain ⟨j, e, hj⟩ := (lookup_spec name inputNames 0).2.1 id h h0
  exact ⟨j, by omega, hj⟩

/-- **C48** An unknown input name gives an id that the range check of every caller refuses. -/
theorem unknown_input (name : String) (h : name ∉ inputNames) :
    inputFromCname name = -1 ∧ inputsCount ≤ asUnsigned (inputFromCname name) := by
  have := (lookup_spec name inputNames 0).1 h
  refine ⟨this, ?_⟩
  have e : inputFromCname name = -1 := this
  rw [e]
  decide

/-- A value within optional limits. -/
def Within (lo : Option ℚ) (x : ℚ) (hi : Option ℚ) : Prop := (∀ l ∈ lo, l ≤ x) ∧ (∀ h ∈ hi, x ≤ h)

instance (lo : Option ℚ) (x : ℚ) (hi : Option ℚ) : Decidable (Within lo x hi) := by
  unfold Within; infer_instance

/-- **C48** Every default lies in the declared range of its setting. -/
theorem defaults_in_range : ∀ s ∈ settings, Within s.min s.default s.max := by decide +kernel

/-- **C48** The ranges of every input are nested: hard limits, soft limits, normal value. -/
theorem input_ranges_nested : ∀ i ∈ inputs, Within i.softMin i.normal i.softMax ∧
    (∀ l ∈ i.softMin, Within i.hardMin l i.hardMax) ∧ (∀ h ∈ i.softMax, Within i.hardMin h i.hardMax) := by
  decide +kernel

/-- **C48** All state names differ, and the nine states that serve as the smudge bucket of a brush
without buckets (`&STATE(self, SMUDGE_RA)`, mypaint-brush.c:907-909) are consecutive, in the order of the bucket. -/
theorem state_names : states.Nodup ∧ (states.drop 5).take 9 =
    ["smudge_ra", "smudge_ga", "smudge_ba", "smudge_a", "last_getcolor_r", "last_getcolor_g",
      "last_getcolor_b", "last_getcolor_a", "last_getcolor_recentness"] := by decide +kernel

/-- The tables have the sizes 65, 18 and 44. -/
theorem table_sizes : settingsCount = 65 ∧ inputsCount = 18 ∧ statesCount = 44 := by decide +kernel

example : settingFromCname "radius_logarithmic" = 3 := by decide +kernel
example : inputFromCname "barrel_rotation" = 17 := by decide +kernel
example : "no_such_setting" ∉ settingNames := by decide +kernel

end Verif.Settings
