import Verif.Lemmas.Load
import Mathlib.Data.Rat.Floor

/-!
# C46, C47: loading a brush
-/

namespace Verif.Load

open Verif.Map Verif.Settings

variable {K : Type} [Field K] [LinearOrder K]

/-! ## Specification -/

/-- The settings a document mentions. -/
def settingsOf (doc : JVal K) : List (String × JVal K) :=
  match objGet doc "settings" with
  | some (.obj l) => l
  | _ => []

/-- A document of the supported version with a list of settings. -/
def Supported (c : Conv K) (doc : JVal K) : Prop :=
  (∃ v, objGet doc "version" = some v ∧ getInt c v = 3) ∧ ∃ s, objGet doc "settings" = some s

/-- A curve that a mapping can hold: no point, or two to sixty-four points from left to right. -/
def GoodCurve (vs : List (K × K)) : Prop :=
  vs.length ≠ 1 ∧ vs.length ≤ 64 ∧ (vs.map (·.1)).IsChain (· ≤ ·)

/-- A setting as the library itself would write it: a base value and curves for known inputs. -/
structure GoodSetting (c : Conv K) (v : JVal K) where
  base : JVal K
  ins : List (String × JVal K)
  hasBase : objGet v "base_value" = some base
  hasInputs : objGet v "inputs" = some (.obj ins)
  distinct : (ins.map (·.1)).Nodup
  known : ∀ e ∈ ins, e.1 ∈ inputNames
  curves : ∀ e ∈ ins, ∃ pts vs, e.2 = .arr pts ∧ pairsOf c pts = some vs ∧ GoodCurve vs

/-! ## C46: what loading touches -/

theorem newBrush_good (mem : Nat → Nat → Points K) : Good (newBrush mem) :=
  fun id _ => ⟨new_inv (mem id) inputsCount, rfl⟩

/-- **C46** A string that is not JSON, or a document without the right version or without settings, is
refused and leaves the brush as it was. -/
theorem refused_untouched (c : Conv K) (doc : Option (JVal K)) (b : Brush K)
    (h : ∀ d, doc = some d → ¬ Supported c d) : fromString c doc b = .ok (false, b) := by
  unfold fromString
  split
  · rfl
  · rfl
  · rename_i d _
    have h := h d rfl
    unfold loadObject
    cases hv : objGet d "version" with
    | none => rfl
    | some v =>
      dsimp only
      by_cases h3 : getInt c v = 3
      · rw [if_neg (not_not.mpr h3)]
        cases hs : objGet d "settings" with
        | none => rfl
        | some s => exact absurd ⟨⟨v, hv, h3⟩, s, hs⟩ h
      · rw [if_pos h3]; rfl

theorem loadObject_settings (c : Conv K) (d : JVal K) (b : Brush K) (r : Bool × Brush K)
    (h : loadObject c d b = .ok r) : r = (false, b) ∨ loadSettings c (settingsOf d) false b = .ok r := by
  unfold loadObject at h
  unfold settingsOf
  cases hv : objGet d "version" with
  | none => rw [hv] at h; cases h; exact .inl rfl
  | some v =>
    rw [hv] at h
    dsimp only at h
    by_cases h3 : getInt c v = 3
    · rw [if_neg (not_not.mpr h3)] at h
      cases hs : objGet d "settings" with
      | none => rw [hs] at h; cases h; exact .inl rfl
      | some s =>
        rw [hs] at h
        cases s with
        | obj l => exact .inr h
        | _ => cases h
    · rw [if_pos h3] at h; cases h; exact .inl rfl

theorem fromString_cases (c : Conv K) (doc : Option (JVal K)) (b : Brush K) (r : Bool × Brush K)
    (h : fromString c doc b = .ok r) :
    r = (false, b) ∨ ∃ d, doc = some d ∧ loadSettings c (settingsOf d) false b = .ok r := by
  unfold fromString at h
  split at h
  · cases h; exact .inl rfl
  · cases h; exact .inl rfl
  · rename_i d _
    rcases loadObject_settings c d b r h with h | h
    · exact .inl h
    · exact .inr ⟨d, rfl, h⟩

theorem asUnsigned_nat {k : Nat} (h : k < 2 ^ 32) : asUnsigned (k : Int) = k := by
  unfold asUnsigned
  omega

theorem id_of_name {name : String} {id : Nat} (h : asUnsigned (settingFromCname name) = id)
    (hid : id < settingsCount) : settingNames[id]? = some name := by
  by_cases hn : name ∈ settingNames
  · obtain ⟨k, hk⟩ := List.getElem?_of_mem hn
    have hlt : k < settingsCount := by
      have := (List.getElem?_eq_some_iff.mp hk).1
      exact this.trans_le (by decide)
    have h65 : settingsCount = 65 := by decide +kernel
    rw [setting_from_its_name k name hk, asUnsigned_nat (by omega)] at h
    rw [← h]; exact hk
  · have := (unknown_setting name hn).2
    omega

theorem input_of_name {name : String} {j : Nat} (h : asUnsigned (inputFromCname name) = j)
    (hj : j < inputsCount) : inputNames[j]? = some name := by
  by_cases hn : name ∈ inputNames
  · obtain ⟨k, hk⟩ := List.getElem?_of_mem hn
    have hlt : k < inputsCount := by
      have := (List.getElem?_eq_some_iff.mp hk).1
      exact this.trans_le (by decide)
    have h18 : inputsCount = 18 := by decide +kernel
    rw [input_from_its_name k name hk, asUnsigned_nat (by omega)] at h
    rw [← h]; exact hk
  · have := (unknown_input name hn).2
    omega

/-- **C46** Whatever is loaded into whatever brush, settings that the document does not name keep their
base value and all their curves. -/
theorem unnamed_settings_untouched (c : Conv K) (doc : Option (JVal K)) (b b' : Brush K) (ok : Bool)
    (hg : Good b) (h : fromString c doc b = .ok (ok, b')) (id : Nat) (hid : id < settingsCount)
    (hn : ∀ d, doc = some d → ∀ e ∈ settingsOf d, settingNames[id]? ≠ some e.1) : b' id = b id := by
  rcases fromString_cases c doc b _ h with h' | ⟨d, rfl, h'⟩
  · cases h'; rfl
  · exact (loadSettings_frame c _ false ok b b' hg h').2.1 id
      (fun e he hh => hn d rfl e he (id_of_name hh hid))

/-- **C46** In a setting that the document names, curves of inputs that it does not name there stay. -/
theorem unnamed_inputs_untouched (c : Conv K) (doc : Option (JVal K)) (b b' : Brush K) (ok : Bool)
    (hg : Good b) (h : fromString c doc b = .ok (ok, b')) (id : Nat) (hid : id < settingsCount)
    (j : Nat) (hj : j < inputsCount)
    (hn : ∀ d, doc = some d → ∀ e ∈ settingsOf d, settingNames[id]? = some e.1 →
      ∀ i ∈ inputsOf e.2, inputNames[j]? ≠ some i.1) : (b' id).pts j = (b id).pts j := by
  rcases fromString_cases c doc b _ h with h' | ⟨d, rfl, h'⟩
  · cases h'; rfl
  · exact (loadSettings_frame c _ false ok b b' hg h').2.2 id j
      (fun e he hh i hi hji => hn d rfl e he (id_of_name hh hid) i hi (input_of_name hji hj))

/-- A loaded brush is again one that can be loaded into. -/
theorem load_keeps_good (c : Conv K) (doc : Option (JVal K)) (b b' : Brush K) (ok : Bool)
    (hg : Good b) (h : fromString c doc b = .ok (ok, b')) : Good b' := by
  rcases fromString_cases c doc b _ h with h' | ⟨d, rfl, h'⟩
  · cases h'; exact hg
  · exact (loadSettings_frame c _ false ok b b' hg h').1

theorem loadSettings_append (c : Conv K) (l₁ l₂ : List (String × JVal K)) : ∀ (any : Bool) (b : Brush K),
    loadSettings c (l₁ ++ l₂) any b = (do
      let (any, b) ← loadSettings c l₁ any b
      loadSettings c l₂ any b) := by
  induction l₁ with
  | nil => intro any b; rfl
  | cons e l ih =>
    intro any b
    obtain ⟨name, v⟩ := e
    have e : ∀ r, loadSettings c ((name, v) :: r) any b = (do
      let (ok, b) ← loadSetting c name v b
      loadSettings c r (any || ok) b) := fun r => rfl
    rw [List.cons_append, e, e]
    cases h1 : loadSetting c name v b with
    | error e => rfl
    | ok r =>
      obtain ⟨ok1, b1⟩ := r
      exact ih (any || ok1) b1

/-- **C46** A setting with an unknown name has no effect at all, wherever it stands and whatever it
contains. -/
theorem unknown_setting_ignored (c : Conv K) (l₁ l₂ : List (String × JVal K)) (name : String)
    (hn : name ∉ settingNames) (v : JVal K) (any : Bool) (b : Brush K) :
    loadSettings c (l₁ ++ (name, v) :: l₂) any b = loadSettings c (l₁ ++ l₂) any b := by
  rw [loadSettings_append, loadSettings_append]
  congr 1
  funext r
  obtain ⟨any, b⟩ := r
  show (do
    let (ok, b) ← loadSetting c name v b
    loadSettings c l₂ (any || ok) b) = _
  rw [loadSetting_unknown c name v b (unknown_setting name hn).2]
  show loadSettings c l₂ (any || false) b = loadSettings c l₂ any b
  rw [Bool.or_false]

/-! ## C46: what loading sets -/

theorem known_input {name : String} (h : name ∈ inputNames) :
    ∃ k, k < inputsCount ∧ inputNames[k]? = some name ∧ asUnsigned (inputFromCname name) = k := by
  obtain ⟨k, hk⟩ := List.getElem?_of_mem h
  have hlt : k < inputsCount := ((List.getElem?_eq_some_iff.mp hk).1).trans_le (by decide)
  have h18 : inputsCount = 18 := by decide +kernel
  refine ⟨k, hlt, hk, ?_⟩
  rw [input_from_its_name k name hk, asUnsigned_nat (by omega)]

theorem known_setting {name : String} (h : name ∈ settingNames) :
    ∃ k, k < settingsCount ∧ settingNames[k]? = some name ∧ asUnsigned (settingFromCname name) = k := by
  obtain ⟨k, hk⟩ := List.getElem?_of_mem h
  have hlt : k < settingsCount := ((List.getElem?_eq_some_iff.mp hk).1).trans_le (by decide)
  have h65 : settingsCount = 65 := by decide +kernel
  refine ⟨k, hlt, hk, ?_⟩
  rw [setting_from_its_name k name hk, asUnsigned_nat (by omega)]

/-- The mapping holds this curve for this input. -/
def HasCurve (m : Mapping K) (j : Nat) (vs : List (K × K)) : Prop :=
  getN m j = .ok vs.length ∧ ∀ (i : Nat) (v : K × K), vs[i]? = some v → getPoint m j i = .ok v

theorem hasCurve_congr {m m' : Mapping K} {j : Nat} {vs : List (K × K)} (h : HasCurve m j vs)
    (h1 : m'.pts j = m.pts j) (h2 : m'.inputs = m.inputs) : HasCurve m' j vs := by
  unfold HasCurve getN getPoint at *
  simp only [Int.toNat_natCast] at *
  rw [h1, h2]
  exact h

theorem mapInputs_ok (c : Conv K) (ins : List (String × JVal K)) : ∀ (m : Mapping K), Inv m →
    m.inputs = inputsCount → (ins.map (·.1)).Nodup → (∀ e ∈ ins, e.1 ∈ inputNames) →
    (∀ e ∈ ins, ∃ pts vs, e.2 = .arr pts ∧ pairsOf c pts = some vs ∧ GoodCurve vs) →
    ∃ m', mapInputs c ins m = .ok (true, m') ∧
      ∀ e ∈ ins, ∀ pts vs, e.2 = .arr pts → pairsOf c pts = some vs →
        ∀ j, inputNames[j]? = some e.1 → HasCurve m' j vs := by
  induction ins with
  | nil => intro m _ _ _ _ _; exact ⟨m, rfl, by simp⟩
  | cons e l ih =>
    intro m hi hin hnd hk hc
    obtain ⟨name, v⟩ := e
    obtain ⟨pts, vs, rfl, hvs, h1, h64, hch⟩ : ∃ pts vs, v = .arr pts ∧ pairsOf c pts = some vs ∧ GoodCurve vs :=
      hc (name, v) (by simp)
    obtain ⟨k, hk1, hk2, hk3⟩ := known_input (hk (name, .arr pts) (by simp))
    obtain ⟨m1, hm1, hn1, hp1⟩ := loadCurve_ok (m := m) (input := k) hi (by omega) hvs h1 h64 hch
    obtain ⟨f0, f1, f2, f3⟩ := loadCurve_frame hi hm1
    simp only [List.map_cons, List.nodup_cons] at hnd
    obtain ⟨m', hm', hall⟩ := ih m1 f0 (f2.trans hin) hnd.2 (fun e he => hk e (by simp [he]))
      (fun e he => hc e (by simp [he]))
    refine ⟨m', ?_, ?_⟩
    · unfold mapInputs
      rw [hk3, if_neg (by omega), hm1]
      exact hm'
    · intro e he pts' vs' he2 hvs' j hj
      rcases List.mem_cons.mp he with rfl | he
      · dsimp only at he2 hj
        injection he2 with he2
        subst he2
        rw [hvs] at hvs'
        injection hvs' with hvs'
        subst hvs'
        obtain rfl : j = k := by
          have a := input_from_its_name j name hj
          have b := input_from_its_name k name hk2
          omega
        obtain ⟨g0, g1, g2, g3⟩ := mapInputs_frame c l m1 m' true f0 hm'
        refine hasCurve_congr (m := m1) ⟨?_, hp1⟩ ?_ g2
        · unfold getN
          rw [if_neg (by omega)]
          simp only [Int.toNat_natCast]
          rw [hn1]
        · apply g3
          intro e he heq
          have := input_of_name heq hk1
          rw [hk2] at this
          injection this with this
          have this : name = e.1 := this
          exact hnd.1 (by rw [this]; exact List.mem_map_of_mem he)
      · exact hall e he pts' vs' he2 hvs' j hj

/-- The brush holds the setting as the document gives it. -/
def HasSetting (c : Conv K) (m : Mapping K) (v : JVal K) : Prop :=
  (∀ base, objGet v "base_value" = some base → m.base = getDouble c base) ∧
  ∀ e ∈ inputsOf v, ∀ pts vs, e.2 = .arr pts → pairsOf c pts = some vs →
    ∀ j, inputNames[j]? = some e.1 → HasCurve m j vs

theorem mapSetting_ok (c : Conv K) (v : JVal K) (hv : Nonempty (GoodSetting c v)) (m : Mapping K)
    (hi : Inv m) (hin : m.inputs = inputsCount) :
    ∃ m', mapSetting c v m = .ok (true, m') ∧ HasSetting c m' v := by
  obtain ⟨g⟩ := hv
  have hb : Inv (setBase m (getDouble c g.base)) := ⟨hi.used, hi.size⟩
  obtain ⟨m', hm', hall⟩ := mapInputs_ok c g.ins _ hb hin g.distinct g.known g.curves
  obtain ⟨_, g1, _⟩ := mapInputs_frame c g.ins _ m' true hb hm'
  have hins : inputsOf v = g.ins := by unfold inputsOf; rw [g.hasInputs]
  refine ⟨m', ?_, ?_, ?_⟩
  · unfold mapSetting
    rw [g.hasBase, g.hasInputs]
    exact hm'
  · intro base hbase
    rw [g.hasBase] at hbase
    injection hbase with hbase
    rw [g1, ← hbase]
    rfl
  · rw [hins]; exact hall

theorem loadSettings_ok (c : Conv K) (l : List (String × JVal K)) : ∀ (any : Bool) (b : Brush K), Good b →
    (l.map (·.1)).Nodup → (∀ e ∈ l, e.1 ∈ settingNames → Nonempty (GoodSetting c e.2)) →
    ∃ b', loadSettings c l any b = .ok (any || l.any fun e => e.1 ∈ settingNames, b') ∧
      ∀ e ∈ l, ∀ id, settingNames[id]? = some e.1 → HasSetting c (b' id) e.2 := by
  induction l with
  | nil => intro any b _ _ _; exact ⟨b, by simp [loadSettings], by simp⟩
  | cons e l ih =>
    intro any b hg hnd hgood
    obtain ⟨name, v⟩ := e
    simp only [List.map_cons, List.nodup_cons] at hnd
    by_cases hn : name ∈ settingNames
    · obtain ⟨k, hk1, hk2, hk3⟩ := known_setting hn
      obtain ⟨m1, hm1, hs1⟩ := mapSetting_ok c v (hgood (name, v) (by simp) hn) (b k) (hg k hk1).1 (hg k hk1).2
      have hl : loadSetting c name v b = .ok (true, setMapping b k m1) := by
        rw [loadSetting_eq c name v b (by omega), hk3, hm1]
        rfl
      have hgood1 := (loadSetting_frame c name v b _ true hg hl).1
      obtain ⟨b', hb', hall⟩ := ih (any || true) _ hgood1 hnd.2 (fun e he => hgood e (by simp [he]))
      refine ⟨b', ?_, ?_⟩
      · unfold loadSettings
        rw [hl]
        refine Eq.trans ?_ (hb'.trans ?_)
        · rfl
        · simp [hn]
      · intro e he id hid
        rcases List.mem_cons.mp he with rfl | he
        · obtain rfl : id = k := by
            have a := setting_from_its_name id name hid
            have b := setting_from_its_name k name hk2
            omega
          have := (loadSettings_frame c l _ _ _ b' hgood1 hb').2.1 id (by
            intro e he heq
            have := id_of_name heq hk1
            rw [hk2] at this
            injection this with this
            exact hnd.1 (by rw [this]; exact List.mem_map_of_mem he))
          rw [this, setMapping_same]
          exact hs1
        · exact hall e he id hid
    · have hl := loadSetting_unknown c name v b (unknown_setting name hn).2
      obtain ⟨b', hb', hall⟩ := ih any b hg hnd.2 (fun e he => hgood e (by simp [he]))
      refine ⟨b', ?_, ?_⟩
      · unfold loadSettings
        rw [hl]
        show loadSettings c l (any || false) b = _
        rw [Bool.or_false, hb']
        simp [hn]
      · intro e he id hid
        rcases List.mem_cons.mp he with rfl | he
        · exact absurd (List.mem_of_getElem? hid) hn
        · exact hall e he id hid

/-- **C46** A document of the supported version whose known settings are all well-formed is loaded into any
brush: afterwards every setting it names has the base value and the curves of the document. The call returns
TRUE if at least one setting is known. -/
theorem load_sets (c : Conv K) (doc : JVal K) (l : List (String × JVal K)) (b : Brush K) (hg : Good b)
    (version : JVal K) (hv : objGet doc "version" = some version) (h3 : getInt c version = 3)
    (hs : objGet doc "settings" = some (.obj l)) (hnd : (l.map (·.1)).Nodup)
    (hgood : ∀ e ∈ l, e.1 ∈ settingNames → Nonempty (GoodSetting c e.2)) :
    ∃ b', fromString c (some doc) b = .ok (l.any fun e => e.1 ∈ settingNames, b') ∧
      ∀ e ∈ l, ∀ id, settingNames[id]? = some e.1 → HasSetting c (b' id) e.2 := by
  obtain ⟨b', hb', hall⟩ := loadSettings_ok c l false b hg hnd hgood
  refine ⟨b', ?_, hall⟩
  have hd : ∃ o, doc = .obj o := by
    cases doc with
    | obj o => exact ⟨o, rfl⟩
    | _ => cases hv
  obtain ⟨o, rfl⟩ := hd
  show loadObject c (.obj o) b = _
  unfold loadObject
  rw [hv]
  dsimp only
  rw [if_neg (not_not.mpr h3), hs]
  show loadSettings c l false b = _
  rw [hb', Bool.false_or]

/-! ## C46, negated part: an unknown input -/

/-- Reading numbers from strings: anything will do here. -/
def conv : Conv ℚ := { strToDouble := fun _ => 0, strToInt := fun _ => 0, doubleToInt := fun x => ⌊x⌋ }

def freshMem : Nat → Nat → Points ℚ := fun _ _ => ⟨fun _ => 0, fun _ => 0, 0⟩

def pt (x y : ℚ) : JVal ℚ := .arr [.dbl x, .dbl y]

/-- A document of version 3 with one setting `opaque` and the given inputs. -/
def docWith (inputs : JVal ℚ) : JVal ℚ :=
  .obj [("version", .int 3), ("settings", .obj [("opaque", .obj [("base_value", .dbl (1 / 2)), ("inputs", inputs)])])]

/-- What the caller sees: the result, and base value and number of points for `pressure` of `opaque`. -/
def outcome (doc : JVal ℚ) : Except Fault (Bool × ℚ × Nat) := do
  let (ok, b) ← fromString conv (some doc) (newBrush freshMem)
  pure (ok, (b 0).base, ((b 0).pts 0).n)

/-- **C46, negated.** An unknown input is not ignored: it ends the loading of its setting. The two documents
differ only in the order in which a known and an unknown input are written, and only one of them
brings the curve; both report failure although the base value was changed. -/
theorem unknown_input_stops_loading :
    outcome (docWith (.obj [("pressure", .arr [pt 0 0, pt 1 1]), ("twist", .arr [])])) = .ok (false, 1 / 2, 2) ∧
    outcome (docWith (.obj [("twist", .arr []), ("pressure", .arr [pt 0 0, pt 1 1])])) = .ok (false, 1 / 2, 0) ∧
    outcome (docWith (.obj [("pressure", .arr [pt 0 0, pt 1 1])])) = .ok (true, 1 / 2, 2) := by
  refine ⟨?_, ?_, ?_⟩ <;> decide +kernel

/-! ## C47 -/

/-- **C47, partial.** Loading never aborts as long as the known settings of the document are well-formed,
whatever stands elsewhere. Missing: malformed settings, which do abort, see below. -/
theorem load_never_aborts_partial (c : Conv K) (doc : Option (JVal K)) (b : Brush K) (hg : Good b)
    (h : ∀ d, doc = some d → Supported c d → ∃ l, objGet d "settings" = some (.obj l) ∧ (l.map (·.1)).Nodup ∧
      ∀ e ∈ l, e.1 ∈ settingNames → Nonempty (GoodSetting c e.2)) :
    ∃ r, fromString c doc b = .ok r := by
  cases doc with
  | none => exact ⟨_, rfl⟩
  | some d =>
    by_cases hd : Supported c d
    · obtain ⟨l, h1, h2, h3⟩ := h d rfl hd
      obtain ⟨⟨v, hv, h3v⟩, _⟩ := hd
      obtain ⟨b', hb', _⟩ := load_sets c d l b hg v hv h3v h1 h2 h3
      exact ⟨_, hb'⟩
    · exact ⟨_, refused_untouched c (some d) b (fun e he => by cases he; exact hd)⟩

/-- **C47, negated.** Each of these syntactically valid documents crashes the program that loads it: a
curve with one point, with sixty-five points, with points out of order, with a point that is not an array;
inputs or settings that are not objects. -/
theorem untrusted_document_aborts :
    outcome (docWith (.obj [("pressure", .arr [pt 0 0])])) = .error .assertFail ∧
    outcome (docWith (.obj [("pressure", .arr (List.replicate 65 (pt 0 0)))])) = .error .assertFail ∧
    outcome (docWith (.obj [("pressure", .arr [pt 1 0, pt 0 1])])) = .error .assertFail ∧
    outcome (docWith (.obj [("pressure", .arr [.dbl 0, .dbl 1])])) = .error .assertFail ∧
    outcome (docWith (.arr [])) = .error .nullDeref ∧
    outcome (.obj [("version", .int 3), ("settings", .arr [])]) = .error .nullDeref := by
  refine ⟨?_, ?_, ?_, ?_, ?_, ?_⟩ <;> decide +kernel

/-- **C47** As for curves there are no other crashes: one that is loaded without abort is well-formed (and `load_sets` loads every well-formed one). -/
theorem loaded_curves_are_good (c : Conv K) (input : Nat) (pts : List (JVal K)) (m m' : Mapping K)
    (h : loadCurve c input pts m = .ok m') : ∃ vs, pairsOf c pts = some vs ∧ GoodCurve vs := by
  obtain ⟨vs, h1, h2, h3, h4⟩ := loadCurve_only h
  exact ⟨vs, h1, h2, h3, h4⟩

/-! ## Defaults -/

theorem setN_clear {m : Mapping K} (hm : Inv m) {i : Nat} (hi : i < m.inputs) :
    ∃ m', setN m i 0 = .ok m' ∧ Inv m' ∧ m'.inputs = m.inputs ∧ m'.base = m.base ∧
      (∀ j, j ≠ i → m'.pts j = m.pts j) ∧ (m'.pts i).n = 0 := by
  obtain ⟨m', h⟩ := setN_ok hm hi (n := 0) ⟨le_refl _, by omega⟩ (by omega)
  obtain ⟨f1, f2, f3, f4⟩ := setN_frame h
  obtain ⟨g1, _⟩ := setN_inv hm h
  exact ⟨m', h, g1, f2, f1, f3, f4⟩

theorem clear_loop (id : Nat) (hid : id < settingsCount) (n : Nat) (hn : n ≤ inputsCount) (b : Brush K)
    (hg : Good b) :
    ∃ b', (List.range n).foldlM (fun b i => setMappingN b id i 0) b = (.ok b' : Except Fault _) ∧ Good b' ∧
      (∀ s, s ≠ id → b' s = b s) ∧ ∀ j < n, ((b' id).pts j).n = 0 := by
  induction n with
  | zero => exact ⟨b, rfl, hg, fun _ _ => rfl, by simp⟩
  | succ n ih =>
    obtain ⟨b1, e1, g1, f1, z1⟩ := ih (by omega)
    obtain ⟨m', hm', i1, i2, _, i4, i5⟩ := setN_clear (g1 id hid).1 (i := n) (by
      rw [(g1 id hid).2]; omega)
    refine ⟨setMapping b1 id m', ?_, ?_, ?_, ?_⟩
    · rw [List.range_succ, List.foldlM_append, e1]
      refine Eq.trans (b := List.foldlM (m := Except Fault) (fun b i => setMappingN b id i 0) b1 [n]) rfl ?_
      rw [List.foldlM_cons]
      unfold setMappingN
      rw [if_neg (not_not.mpr hid), hm']
      rfl
    · intro s hs
      by_cases he : s = id
      · rw [he, setMapping_same]; exact ⟨i1, i2.trans (g1 id hid).2⟩
      · rw [setMapping_other b1 m' he]; exact g1 s hs
    · intro s hs
      rw [setMapping_other b1 m' hs, f1 s hs]
    · intro j hj
      rw [setMapping_same]
      by_cases he : j = n
      · rw [he]; exact i5
      · rw [i4 j he]; exact z1 j (by omega)

/-- The default of a setting, from the table. -/
def defaultOf (s : Nat) : ℚ := (settings.map SettingInfo.default).getD s 0

theorem defaults_loop (n : Nat) (hn : n ≤ settingsCount) (b : Brush K) (hg : Good b) :
    ∃ b', (List.range n).foldlM (fun b s => do
        let b ← clearInputs s b
        setBaseValue b s ((defaultOf s : ℚ) : K)) b = (.ok b' : Except Fault _) ∧ Good b' ∧
      ∀ s < n, (b' s).base = ((defaultOf s : ℚ) : K) ∧ ∀ j < inputsCount, ((b' s).pts j).n = 0 := by
  induction n with
  | zero => exact ⟨b, rfl, hg, by simp⟩
  | succ n ih =>
    obtain ⟨b1, e1, g1, f1⟩ := ih (by omega)
    obtain ⟨b2, e2, g2, f2, z2⟩ := clear_loop n (by omega) inputsCount (le_refl _) b1 g1
    refine ⟨setMapping b2 n (Map.setBase (b2 n) ((defaultOf n : ℚ) : K)), ?_, ?_, ?_⟩
    · rw [List.range_succ, List.foldlM_append, e1]
      refine Eq.trans (b := List.foldlM (m := Except Fault) (fun b s => do
        let b ← clearInputs s b
        setBaseValue b s ((defaultOf s : ℚ) : K)) b1 [n]) rfl ?_
      rw [List.foldlM_cons]
      unfold clearInputs
      rw [e2]
      have : setBaseValue b2 n ((defaultOf n : ℚ) : K)
          = .ok (setMapping b2 n (Map.setBase (b2 n) ((defaultOf n : ℚ) : K))) := by
        unfold setBaseValue
        rw [if_neg (by omega)]
      show (setBaseValue b2 n _ >>= fun s' => List.foldlM (m := Except Fault) _ s' []) = _
      rw [this]
      rfl
    · intro s hs
      by_cases he : s = n
      · rw [he, setMapping_same]
        exact ⟨⟨(g2 n (by omega)).1.used, (g2 n (by omega)).1.size⟩, (g2 n (by omega)).2⟩
      · rw [setMapping_other b2 _ he]; exact g2 s hs
    · intro s hs
      by_cases he : s = n
      · rw [he, setMapping_same]; exact ⟨rfl, z2⟩
      · rw [setMapping_other b2 _ he, f2 s he]; exact f1 s (by omega)

/-- **C55** `mypaint_brush_from_defaults` always succeeds, and the settings it leaves do not depend on the
brush it is applied to: every base value is the default from the table, and the only curve is the identity
from pressure to `opaque_multiply`. -/
theorem from_defaults_resets (b : Brush K) (hg : Good b) (h01 : (0 : K) ≤ 1) :
    ∃ b', fromDefaults b = .ok b' ∧ Good b' ∧
      (∀ s < settingsCount, (b' s).base = ((defaultOf s : ℚ) : K)) ∧
      (∀ s < settingsCount, ∀ j < inputsCount, ¬ (s = opaqueMultiply ∧ j = pressureInput) → ((b' s).pts j).n = 0) ∧
      HasCurve (b' opaqueMultiply) pressureInput [(0, 0), (1, 1)] := by
  obtain ⟨b1, e1, g1, f1⟩ := defaults_loop (K := K) settingsCount (le_refl _) b hg
  have hom : opaqueMultiply < settingsCount := by decide +kernel
  have hpi : pressureInput < inputsCount := by decide +kernel
  have hpts : pairsOf (⟨fun _ => 0, fun _ => 0, fun _ => 0⟩ : Conv K)
      [.arr [.dbl 0, .dbl 0], .arr [.dbl 1, .dbl 1]] = some [(0, 0), (1, 1)] := rfl
  obtain ⟨m', hm', hn', hp'⟩ := loadCurve_ok (m := b1 opaqueMultiply) (input := pressureInput)
    (g1 _ hom).1 (by rw [(g1 _ hom).2]; exact hpi) hpts (by simp) (by simp) (by simpa using h01)
  obtain ⟨i0, i1, i2, i3⟩ := loadCurve_frame (g1 _ hom).1 hm'
  refine ⟨setMapping b1 opaqueMultiply m', ?_, ?_, ?_, ?_, ?_⟩
  · have := loadCurve_eq (⟨fun _ => 0, fun _ => 0, fun _ => 0⟩ : Conv K) opaqueMultiply pressureInput
      [.arr [.dbl 0, .dbl 0], .arr [.dbl 1, .dbl 1]] b1 hom
    rw [hm'] at this
    unfold fromDefaults
    have e1' : (List.range settingsCount).foldlM (m := Except Fault) (fun b s => do
        let b ← clearInputs s b
        setBaseValue b s (((settings.map SettingInfo.default).getD s 0 : ℚ) : K)) b = .ok b1 := e1
    rw [e1']
    show (do
      let b ← setMappingN b1 opaqueMultiply pressureInput 2
      let b ← setMappingPoint b opaqueMultiply pressureInput 0 0 0
      setMappingPoint b opaqueMultiply pressureInput 1 1 1) = _
    refine Eq.trans ?_ this
    show _ = (do
      let b ← setMappingN b1 opaqueMultiply pressureInput 2
      let b ← setMappingPoint b opaqueMultiply pressureInput 0 0 0
      let b ← setMappingPoint b opaqueMultiply pressureInput 1 1 1
      Except.ok b)
    congr 1
    funext b
    congr 1
    funext b
    cases setMappingPoint b opaqueMultiply pressureInput 1 1 1 <;> rfl
  · intro s hs
    by_cases he : s = opaqueMultiply
    · rw [he, setMapping_same]; exact ⟨i0, i2.trans (g1 _ hom).2⟩
    · rw [setMapping_other b1 _ he]; exact g1 s hs
  · intro s hs
    by_cases he : s = opaqueMultiply
    · rw [he, setMapping_same, i1]; exact (f1 _ hom).1
    · rw [setMapping_other b1 _ he]; exact (f1 s hs).1
  · intro s hs j hj hne
    by_cases he : s = opaqueMultiply
    · rw [he, setMapping_same, i3 j (fun hj' => hne ⟨he, hj'⟩)]; exact (f1 _ hom).2 j hj
    · rw [setMapping_other b1 _ he]; exact (f1 s hs).2 j hj
  · rw [setMapping_same]
    refine ⟨?_, hp'⟩
    unfold getN
    rw [if_neg (by rw [i2, (g1 _ hom).2]; omega)]
    simp only [Int.toNat_natCast]
    rw [hn']

/-- The two ids used in `mypaint_brush_from_defaults` are the ones of these names. -/
theorem default_curve_names : settingNames[opaqueMultiply]? = some "opaque_multiply" ∧
    inputNames[pressureInput]? = some "pressure" := by decide +kernel

/-! ## Concrete cases -/

example : Good (newBrush freshMem) := newBrush_good freshMem

/-- A well-formed setting. -/
def demoSetting : JVal ℚ :=
  .obj [("base_value", .dbl (1 / 2)), ("inputs", .obj [("pressure", .arr [pt 0 0, pt 1 1])])]

example : Nonempty (GoodSetting conv demoSetting) := ⟨{
  base := .dbl (1 / 2)
  ins := [("pressure", .arr [pt 0 0, pt 1 1])]
  hasBase := rfl
  hasInputs := rfl
  distinct := by decide
  known := by decide +kernel
  curves := by
    intro e he
    simp only [List.mem_singleton] at he
    subst he
    exact ⟨_, [(0, 0), (1, 1)], rfl, rfl, by decide, by decide, by decide +kernel⟩ }⟩

end Verif.Load
