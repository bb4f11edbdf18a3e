import Verif.Model.Load
import Verif.Props.C30_Mapping
import Verif.Props.C48_Names

/-!
# Loading, seen one setting at a time
-/

namespace Verif.Load

open Verif.Map Verif.Settings

variable {K : Type} [Field K] [LinearOrder K]

theorem setMapping_same (b : Brush K) (id : Nat) (m : Mapping K) : setMapping b id m id = m := by
  simp [setMapping]

theorem setMapping_other (b : Brush K) {id j : Nat} (m : Mapping K) (h : j ≠ id) :
    setMapping b id m j = b j := by simp [setMapping, h]

theorem setMapping_self (b : Brush K) (id : Nat) : setMapping b id (b id) = b := by
  funext i
  unfold setMapping
  split
  · rename_i h; rw [h]
  · rfl

theorem setMapping_twice (b : Brush K) (id : Nat) (m m' : Mapping K) :
    setMapping (setMapping b id m) id m' = setMapping b id m' := by
  funext i
  unfold setMapping
  split <;> rfl

/-- The coordinates of a point as the loader reads them. -/
def pairOf (c : Conv K) : JVal K → Option (K × K)
  | .arr l => some (getDouble c (l.getD 0 .null), getDouble c (l.getD 1 .null))
  | _ => none

/-- All points of a curve, if all are arrays. -/
def pairsOf (c : Conv K) : List (JVal K) → Option (List (K × K))
  | [] => some []
  | p :: ps => match pairOf c p, pairsOf c ps with
    | some v, some vs => some (v :: vs)
    | _, _ => none

theorem pairsOf_cons (c : Conv K) (p : JVal K) (ps : List (JVal K)) (vs : List (K × K))
    (h : pairsOf c (p :: ps) = some vs) : ∃ v ws, pairOf c p = some v ∧ pairsOf c ps = some ws ∧ vs = v :: ws := by
  unfold pairsOf at h
  cases h1 : pairOf c p with
  | none => rw [h1] at h; simp at h
  | some v =>
    cases h2 : pairsOf c ps with
    | none => rw [h1, h2] at h; simp at h
    | some ws => rw [h1, h2] at h; exact ⟨v, ws, rfl, rfl, by simpa using h.symm⟩

theorem pairOf_some {c : Conv K} {p : JVal K} {v : K × K} (h : pairOf c p = some v) :
    ∃ l, p = .arr l ∧ v = (getDouble c (l.getD 0 .null), getDouble c (l.getD 1 .null)) := by
  cases p with
  | arr l => exact ⟨l, rfl, by simpa [pairOf] using h.symm⟩
  | _ => exact absurd h (by simp [pairOf])

theorem loadPoints_step (c : Conv K) (id input i : Nat) (l : List (JVal K)) (ps : List (JVal K))
    (b : Brush K) (hid : id < settingsCount) :
    loadPoints c id input i (.arr l :: ps) b = (do
      let m ← Map.setPoint (b id) input i (getDouble c (l.getD 0 .null)) (getDouble c (l.getD 1 .null))
      loadPoints c id input (i + 1) ps (setMapping b id m)) := by
  show (do
    let b ← setMappingPoint b id input i (getDouble c (l.getD 0 .null)) (getDouble c (l.getD 1 .null))
    loadPoints c id input (i + 1) ps b) = _
  unfold setMappingPoint
  rw [if_neg (not_not.mpr hid)]
  cases Map.setPoint (b id) input i (getDouble c (l.getD 0 .null)) (getDouble c (l.getD 1 .null)) <;> rfl

/-- The point loop of the loader is the sequence of `set_point` on the mapping. -/
theorem loadPoints_ok (c : Conv K) (id input : Nat) (hid : id < settingsCount) (ps : List (JVal K)) :
    ∀ (vs : List (K × K)) (i : Nat) (b : Brush K), pairsOf c ps = some vs →
    loadPoints c id input i ps b
      = (Map.setPoints (b id) input i vs).map (fun m => setMapping b id m) := by
  induction ps with
  | nil =>
    intro vs i b h
    have : vs = [] := by simpa [pairsOf] using h.symm
    subst this
    show Except.ok b = Except.ok (setMapping b id (b id))
    rw [setMapping_self]
  | cons p ps ih =>
    intro vs i b h
    obtain ⟨v, ws, h1, h2, rfl⟩ := pairsOf_cons c p ps vs h
    obtain ⟨l, rfl, rfl⟩ := pairOf_some h1
    rw [loadPoints_step c id input i l ps b hid]
    show _ = (do
      let m ← Map.setPoint (b id) input i _ _
      Map.setPoints m input (i + 1) ws).map _
    cases hm : Map.setPoint (b id) input i (getDouble c (l.getD 0 .null)) (getDouble c (l.getD 1 .null)) with
    | error e => rfl
    | ok m =>
      show loadPoints c id input (i + 1) ps (setMapping b id m) = (Map.setPoints m input (i + 1) ws).map _
      rw [ih ws (i + 1) _ h2, setMapping_same]
      congr 1
      funext m'
      exact setMapping_twice b id m m'

/-- If the point loop succeeds, all points were arrays. -/
theorem loadPoints_arrays (c : Conv K) (id input : Nat) (hid : id < settingsCount) (ps : List (JVal K)) :
    ∀ (i : Nat) (b b' : Brush K), loadPoints c id input i ps b = .ok b' → ∃ vs, pairsOf c ps = some vs := by
  induction ps with
  | nil => intro i b b' _; exact ⟨[], rfl⟩
  | cons p ps ih =>
    intro i b b' h
    cases p with
    | arr l =>
      rw [loadPoints_step c id input i l ps b hid] at h
      cases hm : Map.setPoint (b id) input i (getDouble c (l.getD 0 .null)) (getDouble c (l.getD 1 .null)) with
      | error e => rw [hm] at h; exact absurd h (by simp [bind, Except.bind])
      | ok m =>
        rw [hm] at h
        obtain ⟨vs, hv⟩ := ih (i + 1) _ b' h
        exact ⟨_, by rw [pairsOf, hv]; rfl⟩
    | _ => exact absurd h (by simp [loadPoints, arrayGet, bind, Except.bind])

/-! ## What changes in one mapping -/

theorem setPoint_frame {m m' : Mapping K} {input : Nat} {index : Int} {x y : K}
    (h : setPoint m input index x y = .ok m') :
    m'.base = m.base ∧ m'.inputs = m.inputs ∧ ∀ j, j ≠ input → m'.pts j = m.pts j := by
  unfold setPoint at h
  dsimp only at h
  split_ifs at h
  all_goals
    cases h
    refine ⟨rfl, rfl, fun j hj => ?_⟩
    simp only [update]
    rw [if_neg (by omega)]

theorem setPoints_frame (input : Nat) (l : List (K × K)) : ∀ (m m' : Mapping K) (k : Nat), Inv m →
    setPoints m input k l = .ok m' →
    Inv m' ∧ m'.base = m.base ∧ m'.inputs = m.inputs ∧ ∀ j, j ≠ input → m'.pts j = m.pts j := by
  induction l with
  | nil => intro m m' k hi h; cases h; exact ⟨hi, rfl, rfl, fun _ _ => rfl⟩
  | cons v l ih =>
    intro m m' k hi h
    obtain ⟨x, y⟩ := v
    rw [setPoints] at h
    cases hp : setPoint m input k x y with
    | error e => rw [hp] at h; exact absurd h (by simp [bind, Except.bind])
    | ok m1 =>
      rw [hp] at h
      obtain ⟨hi1, _⟩ := setPoint_inv hi hp
      obtain ⟨f1, f2, f3⟩ := setPoint_frame hp
      obtain ⟨g0, g1, g2, g3⟩ := ih m1 m' (k + 1) hi1 h
      exact ⟨g0, g1.trans f1, g2.trans f2, fun j hj => (g3 j hj).trans (f3 j hj)⟩

theorem setN_frame {m m' : Mapping K} {input : Nat} {n : Int} (h : setN m input n = .ok m') :
    m'.base = m.base ∧ m'.inputs = m.inputs ∧ (∀ j, j ≠ input → m'.pts j = m.pts j) ∧
      (m'.pts input).n = n.toNat := by
  unfold setN at h
  dsimp only at h
  split_ifs at h
  all_goals
    cases h
    refine ⟨rfl, rfl, fun j hj => ?_, ?_⟩
    · simp only [update]
      rw [if_neg (by omega)]
    · simp [update]

theorem setN_ok {m : Mapping K} (hm : Inv m) {input : Nat} {n : Int} (hi : input < m.inputs)
    (hn : 0 ≤ n ∧ n ≤ 64) (h1 : n ≠ 1) : ∃ m', setN m input n = .ok m' := by
  have hu := hm.used
  have hc := count_update (fun j => decide ((m.pts j).n ≠ 0))
    (fun j => if j = input then decide (n ≠ 0) else decide ((m.pts j).n ≠ 0))
    m.inputs input hi (by intro j hj; simp only [if_neg hj])
  simp only [if_true, decide_eq_true_eq] at hc
  have hb := List.length_filter_le
    (fun j => if j = input then decide (n ≠ 0) else decide ((m.pts j).n ≠ 0)) (List.range m.inputs)
  rw [List.length_range] at hb
  unfold setN
  rw [if_neg (by omega), if_neg (not_not.mpr hn), if_neg h1]
  simp only [Int.toNat_natCast]
  split_ifs at hc ⊢
  all_goals first
    | exfalso; omega
    | exact ⟨_, rfl⟩

/-! ## One curve -/

/-- Loading one curve into a mapping. -/
def loadCurve (c : Conv K) (input : Nat) (pts : List (JVal K)) (m : Mapping K) : Except Fault (Mapping K) := do
  let m ← setN m input pts.length
  match pairsOf c pts with
  | some vs => setPoints m input 0 vs
  | none => .error .assertFail

theorem loadCurve_step (c : Conv K) (id input : Nat) (pts : List (JVal K)) (b : Brush K)
    (hid : id < settingsCount) {b' : Brush K}
    (h : (do
      let b ← setMappingN b id input pts.length
      loadPoints c id input 0 pts b) = (.ok b' : Except Fault _)) :
    ∃ m', loadCurve c input pts (b id) = .ok m' ∧ b' = setMapping b id m' := by
  unfold setMappingN at h
  rw [if_neg (not_not.mpr hid)] at h
  unfold loadCurve
  cases hn : setN (b id) input pts.length with
  | error e => rw [hn] at h; exact absurd h (by simp [bind, Except.bind, pure, Except.pure])
  | ok m1 =>
    rw [hn] at h
    have h : loadPoints c id input 0 pts (setMapping b id m1) = .ok b' := h
    obtain ⟨vs, hv⟩ := loadPoints_arrays c id input hid pts 0 _ _ h
    rw [loadPoints_ok c id input hid pts vs 0 _ hv, setMapping_same] at h
    cases hs : setPoints m1 input 0 vs with
    | error e => rw [hs] at h; cases h
    | ok m2 =>
      rw [hs] at h
      refine ⟨m2, ?_, ?_⟩
      · show (match pairsOf c pts with | some vs => setPoints m1 input 0 vs | none => .error .assertFail) = _
        rw [hv]; exact hs
      · have : setMapping (setMapping b id m1) id m2 = b' := by
          simpa [Except.map] using h
        rw [← this, setMapping_twice]

theorem loadCurve_frame {c : Conv K} {input : Nat} {pts : List (JVal K)} {m m' : Mapping K} (hi : Inv m)
    (h : loadCurve c input pts m = .ok m') :
    Inv m' ∧ m'.base = m.base ∧ m'.inputs = m.inputs ∧ ∀ j, j ≠ input → m'.pts j = m.pts j := by
  unfold loadCurve at h
  cases hn : setN m input pts.length with
  | error e => rw [hn] at h; exact absurd h (by simp [bind, Except.bind])
  | ok m1 =>
    rw [hn] at h
    have h : (match pairsOf c pts with
      | some vs => setPoints m1 input 0 vs
      | none => .error .assertFail) = (.ok m' : Except Fault _) := h
    cases hv : pairsOf c pts with
    | none => rw [hv] at h; cases h
    | some vs =>
      rw [hv] at h
      obtain ⟨f1, f2, f3, _⟩ := setN_frame hn
      obtain ⟨g0, g1, g2, g3⟩ := setPoints_frame input vs m1 m' 0 (setN_inv hi hn).1 h
      exact ⟨g0, g1.trans f1, g2.trans f2, fun j hj => (g3 j hj).trans (f3 j hj)⟩

theorem pairsOf_length (c : Conv K) (pts : List (JVal K)) : ∀ vs, pairsOf c pts = some vs →
    vs.length = pts.length := by
  induction pts with
  | nil => intro vs h; have : vs = [] := by simpa [pairsOf] using h.symm
           subst this; rfl
  | cons p ps ih =>
    intro vs h
    obtain ⟨v, ws, _, h2, rfl⟩ := pairsOf_cons c p ps vs h
    simp [ih ws h2]

/-- A well-formed curve is loaded. -/
theorem loadCurve_ok {c : Conv K} {input : Nat} {pts : List (JVal K)} {m : Mapping K} (hi : Inv m)
    (hin : input < m.inputs) {vs : List (K × K)} (hv : pairsOf c pts = some vs) (h1 : vs.length ≠ 1)
    (h64 : vs.length ≤ 64) (hs : (vs.map (·.1)).IsChain (· ≤ ·)) :
    ∃ m', loadCurve c input pts m = .ok m' ∧ (m'.pts input).n = vs.length ∧
      ∀ (i : Nat) (v : K × K), vs[i]? = some v → getPoint m' input i = .ok v := by
  have hl := pairsOf_length c pts vs hv
  obtain ⟨m1, hm1⟩ := setN_ok hi hin (n := (pts.length : Int)) ⟨by omega, by omega⟩ (by omega)
  obtain ⟨f1, f2, f3, f4⟩ := setN_frame hm1
  obtain ⟨k1, k2⟩ := points_sorted_partial m1 input vs (by omega) (by omega) h64
  obtain ⟨m', hm'⟩ := k1.mpr hs
  obtain ⟨_, q1, q2⟩ := k2 m' hm'
  refine ⟨m', ?_, q1, q2⟩
  unfold loadCurve
  rw [hm1]
  show (match pairsOf c pts with | some vs => setPoints m1 input 0 vs | none => .error .assertFail) = _
  rw [hv]
  exact hm'

/-- And only a well-formed one. -/
theorem loadCurve_only {c : Conv K} {input : Nat} {pts : List (JVal K)} {m m' : Mapping K}
    (h : loadCurve c input pts m = .ok m') :
    ∃ vs, pairsOf c pts = some vs ∧ vs.length ≠ 1 ∧ vs.length ≤ 64 ∧ (vs.map (·.1)).IsChain (· ≤ ·) := by
  unfold loadCurve at h
  cases hn : setN m input pts.length with
  | error e => rw [hn] at h; exact absurd h (by simp [bind, Except.bind])
  | ok m1 =>
    rw [hn] at h
    have h : (match pairsOf c pts with
      | some vs => setPoints m1 input 0 vs
      | none => .error .assertFail) = (.ok m' : Except Fault _) := h
    cases hv : pairsOf c pts with
    | none => rw [hv] at h; cases h
    | some vs =>
      rw [hv] at h
      have hl := pairsOf_length c pts vs hv
      obtain ⟨f1, f2, f3, f4⟩ := setN_frame hn
      have hb : input < m.inputs ∧ pts.length ≤ 64 ∧ pts.length ≠ 1 := by
        unfold setN at hn
        dsimp only at hn
        split_ifs at hn <;> refine ⟨?_, ?_, ?_⟩ <;> omega
      refine ⟨vs, rfl, by omega, by omega, ?_⟩
      obtain ⟨k1, _⟩ := points_sorted_partial m1 input vs (by omega) (by omega) (by omega)
      exact k1.mp ⟨m', h⟩

theorem setPoint_error {m : Mapping K} {input index : Int} {x y : K} {e : Fault}
    (h : setPoint m input index x y = .error e) : e = .assertFail := by
  unfold setPoint at h
  dsimp only at h
  split_ifs at h <;> cases h <;> rfl

theorem loadPoints_none (c : Conv K) (id input : Nat) (hid : id < settingsCount) (ps : List (JVal K)) :
    ∀ (i : Nat) (b : Brush K), pairsOf c ps = none → loadPoints c id input i ps b = .error .assertFail := by
  induction ps with
  | nil => intro i b h; exact absurd h (by simp [pairsOf])
  | cons p ps ih =>
    intro i b h
    cases p with
    | arr l =>
      rw [loadPoints_step c id input i l ps b hid]
      have h2 : pairsOf c ps = none := by
        cases hv : pairsOf c ps with
        | none => rfl
        | some vs => rw [pairsOf, hv] at h; exact absurd h (by simp [pairOf])
      cases hm : Map.setPoint (b id) input i (getDouble c (l.getD 0 .null)) (getDouble c (l.getD 1 .null)) with
      | error e => rw [setPoint_error hm]; rfl
      | ok m => exact ih (i + 1) _ h2
    | _ => rfl

theorem loadCurve_eq (c : Conv K) (id input : Nat) (pts : List (JVal K)) (b : Brush K)
    (hid : id < settingsCount) :
    (do
      let b ← setMappingN b id input pts.length
      loadPoints c id input 0 pts b) =
    (loadCurve c input pts (b id)).map fun m => setMapping b id m := by
  unfold setMappingN
  rw [if_neg (not_not.mpr hid)]
  unfold loadCurve
  cases hn : setN (b id) input pts.length with
  | error e => rfl
  | ok m1 =>
    show loadPoints c id input 0 pts (setMapping b id m1) = Except.map _
      (match pairsOf c pts with | some vs => setPoints m1 input 0 vs | none => .error .assertFail)
    cases hv : pairsOf c pts with
    | none => exact loadPoints_none c id input hid pts 0 _ hv
    | some vs =>
      rw [loadPoints_ok c id input hid pts vs 0 _ hv, setMapping_same]
      dsimp only
      congr 1
      funext m'
      exact setMapping_twice b id m1 m'

/-! ## The inputs of one setting -/

/-- The loop over the inputs, acting on the mapping of the setting. -/
def mapInputs (c : Conv K) : List (String × JVal K) → Mapping K → Except Fault (Bool × Mapping K)
  | [], m => .ok (true, m)
  | (name, .arr pts) :: rest, m =>
    if inputsCount ≤ asUnsigned (inputFromCname name) then .ok (false, m)
    else do
      let m ← loadCurve c (asUnsigned (inputFromCname name)) pts m
      mapInputs c rest m
  | _ :: _, m => .ok (false, m)

theorem loadInputs_eq (c : Conv K) (id : Nat) (hid : id < settingsCount) (l : List (String × JVal K)) :
    ∀ b : Brush K, loadInputs c id l b = (mapInputs c l (b id)).map fun r => (r.1, setMapping b id r.2) := by
  induction l with
  | nil =>
    intro b
    show Except.ok (true, b) = Except.ok (true, setMapping b id (b id))
    rw [setMapping_self]
  | cons e l ih =>
    intro b
    obtain ⟨name, v⟩ := e
    cases v with
    | arr pts =>
      unfold loadInputs mapInputs
      dsimp only
      by_cases hk : inputsCount ≤ asUnsigned (inputFromCname name)
      · rw [if_pos hk, if_pos hk]
        show Except.ok (false, b) = Except.ok (false, setMapping b id (b id))
        rw [setMapping_self]
      · rw [if_neg hk, if_neg hk]
        have h := loadCurve_eq c id (asUnsigned (inputFromCname name)) pts b hid
        have : ∀ k : Brush K → Except Fault (Bool × Brush K), (do
            let b ← setMappingN b id (asUnsigned (inputFromCname name)) pts.length
            let b ← loadPoints c id (asUnsigned (inputFromCname name)) 0 pts b
            k b) = (do
              let b ← (do
                let b ← setMappingN b id (asUnsigned (inputFromCname name)) pts.length
                loadPoints c id (asUnsigned (inputFromCname name)) 0 pts b)
              k b) := by
          intro k
          cases setMappingN b id (asUnsigned (inputFromCname name)) pts.length <;> rfl
        refine (this _).trans ?_
        rw [h]
        cases hc : loadCurve c (asUnsigned (inputFromCname name)) pts (b id) with
        | error e => rfl
        | ok m1 =>
          show loadInputs c id l (setMapping b id m1) = (mapInputs c l m1).map _
          rw [ih, setMapping_same]
          congr 1
          funext r
          rw [setMapping_twice]
    | _ =>
      show Except.ok (false, b) = Except.ok (false, setMapping b id (b id))
      rw [setMapping_self]

theorem mapInputs_frame (c : Conv K) (l : List (String × JVal K)) : ∀ (m m' : Mapping K) (ok : Bool),
    Inv m → mapInputs c l m = .ok (ok, m') →
    Inv m' ∧ m'.base = m.base ∧ m'.inputs = m.inputs ∧
      ∀ j, (∀ e ∈ l, asUnsigned (inputFromCname e.1) ≠ j) → m'.pts j = m.pts j := by
  induction l with
  | nil => intro m m' ok hi h; cases h; exact ⟨hi, rfl, rfl, fun _ _ => rfl⟩
  | cons e l ih =>
    intro m m' ok hi h
    obtain ⟨name, v⟩ := e
    cases v with
    | arr pts =>
      unfold mapInputs at h
      by_cases hk : inputsCount ≤ asUnsigned (inputFromCname name)
      · rw [if_pos hk] at h; cases h; exact ⟨hi, rfl, rfl, fun _ _ => rfl⟩
      · rw [if_neg hk] at h
        cases hc : loadCurve c (asUnsigned (inputFromCname name)) pts m with
        | error e => rw [hc] at h; exact absurd h (by simp [bind, Except.bind])
        | ok m1 =>
          rw [hc] at h
          obtain ⟨f0, f1, f2, f3⟩ := loadCurve_frame hi hc
          obtain ⟨g0, g1, g2, g3⟩ := ih m1 m' ok f0 h
          refine ⟨g0, g1.trans f1, g2.trans f2, fun j hj => ?_⟩
          rw [g3 j (fun e he => hj e (by simp [he])), f3 j]
          exact fun h => hj (name, .arr pts) (by simp) h.symm
    | _ => cases h; exact ⟨hi, rfl, rfl, fun _ _ => rfl⟩

/-! ## One setting -/

/-- `inputs` of a setting, if it is an object. -/
def inputsOf (v : JVal K) : List (String × JVal K) :=
  match objGet v "inputs" with
  | some (.obj l) => l
  | _ => []

/-- Loading one setting, acting on its mapping. -/
def mapSetting (c : Conv K) (v : JVal K) (m : Mapping K) : Except Fault (Bool × Mapping K) :=
  match objGet v "base_value" with
  | none => .ok (false, m)
  | some base =>
    match objGet v "inputs" with
    | none => .ok (false, setBase m (getDouble c base))
    | some (.obj l) => mapInputs c l (setBase m (getDouble c base))
    | some _ => .error .nullDeref

theorem objGet_not_obj {v : JVal K} (h : ∀ l, v ≠ .obj l) (key : String) : objGet v key = none := by
  cases v with
  | obj l => exact absurd rfl (h l)
  | _ => rfl

theorem loadSetting_eq (c : Conv K) (name : String) (v : JVal K) (b : Brush K)
    (hid : asUnsigned (settingFromCname name) < settingsCount) :
    loadSetting c name v b = (mapSetting c v (b (asUnsigned (settingFromCname name)))).map
      fun r => (r.1, setMapping b (asUnsigned (settingFromCname name)) r.2) := by
  generalize hg : asUnsigned (settingFromCname name) = id at *
  have hself : (Except.ok (false, b) : Except Fault _)
      = (Except.ok (false, b id)).map fun r => (r.1, setMapping b id r.2) := by
    show _ = Except.ok (false, setMapping b id (b id))
    rw [setMapping_self]
  have hset : ∀ x : K, setBaseValue b id x = .ok (setMapping b id (Map.setBase (b id) x)) := by
    intro x
    unfold setBaseValue
    rw [if_neg (not_not.mpr hid)]
  unfold loadSetting mapSetting
  rw [hg]
  dsimp only
  rw [if_neg (by omega)]
  by_cases hv : ∃ l, v = .obj l
  · obtain ⟨l, rfl⟩ := hv
    dsimp only
    cases hb : objGet (.obj l) "base_value" with
    | none => exact hself
    | some base =>
      dsimp only
      rw [hset]
      show (match objGet (JVal.obj l) "inputs" with
        | none => _
        | some inputs => _) = _
      cases hi : objGet (.obj l) "inputs" with
      | none => rfl
      | some inputs =>
        cases inputs with
        | obj ins =>
          show loadInputs c id ins (setMapping b id _) = (mapInputs c ins _).map _
          rw [loadInputs_eq c id hid, setMapping_same]
          congr 1
          funext r
          rw [setMapping_twice]
        | _ => rfl
  · have h0 : ∀ l, v ≠ .obj l := fun l e => hv ⟨l, e⟩
    rw [objGet_not_obj h0]
    cases v with
    | obj l => exact absurd rfl (h0 l)
    | _ => exact hself

theorem mapSetting_frame (c : Conv K) (v : JVal K) (m m' : Mapping K) (ok : Bool)
    (hi : Inv m) (h : mapSetting c v m = .ok (ok, m')) :
    Inv m' ∧ m'.inputs = m.inputs ∧
      ∀ j, (∀ e ∈ inputsOf v, asUnsigned (inputFromCname e.1) ≠ j) → m'.pts j = m.pts j := by
  unfold mapSetting at h
  have hb : ∀ x : K, Inv (setBase m x) := fun x => ⟨hi.used, hi.size⟩
  cases h1 : objGet v "base_value" with
  | none => rw [h1] at h; cases h; exact ⟨hi, rfl, fun _ _ => rfl⟩
  | some base =>
    rw [h1] at h
    unfold inputsOf
    cases h2 : objGet v "inputs" with
    | none => rw [h2] at h; cases h; exact ⟨hb _, rfl, fun _ _ => rfl⟩
    | some ins =>
      rw [h2] at h
      cases ins with
      | obj l =>
        obtain ⟨g0, g1, g2, g3⟩ := mapInputs_frame c l _ m' ok (hb _) h
        exact ⟨g0, g2, g3⟩
      | _ => cases h

/-! ## The settings of a document -/

/-- Every setting's mapping is consistent and has all inputs. -/
def Good (b : Brush K) : Prop := ∀ id < settingsCount, Inv (b id) ∧ (b id).inputs = inputsCount

theorem loadSetting_unknown (c : Conv K) (name : String) (v : JVal K) (b : Brush K)
    (h : settingsCount ≤ asUnsigned (settingFromCname name)) : loadSetting c name v b = .ok (false, b) := by
  unfold loadSetting
  dsimp only
  rw [if_pos h]
  rfl

theorem loadSetting_frame (c : Conv K) (name : String) (v : JVal K) (b b' : Brush K) (ok : Bool)
    (hg : Good b) (h : loadSetting c name v b = .ok (ok, b')) :
    Good b' ∧ (∀ id, asUnsigned (settingFromCname name) ≠ id → b' id = b id) ∧
      ∀ id j, (∀ e ∈ inputsOf v, asUnsigned (inputFromCname e.1) ≠ j) → (b' id).pts j = (b id).pts j := by
  by_cases hk : settingsCount ≤ asUnsigned (settingFromCname name)
  · rw [loadSetting_unknown c name v b hk] at h
    cases h
    exact ⟨hg, fun _ _ => rfl, fun _ _ _ => rfl⟩
  · have hid : asUnsigned (settingFromCname name) < settingsCount := by omega
    rw [loadSetting_eq c name v b hid] at h
    generalize asUnsigned (settingFromCname name) = s at *
    cases hm : mapSetting c v (b s) with
    | error e => rw [hm] at h; cases h
    | ok r =>
      obtain ⟨ok1, m1⟩ := r
      rw [hm] at h
      have h : Except.ok (ok1, setMapping b s m1) = (Except.ok (ok, b') : Except Fault _) := h
      cases h
      obtain ⟨g1, g2, g3⟩ := mapSetting_frame c v (b s) m1 ok (hg s hid).1 hm
      refine ⟨?_, fun id hne => setMapping_other b m1 (Ne.symm hne), ?_⟩
      · intro id hlt
        by_cases he : id = s
        · rw [he, setMapping_same]; exact ⟨g1, g2.trans (hg s hid).2⟩
        · rw [setMapping_other b m1 he]; exact hg id hlt
      · intro id j hj
        by_cases he : id = s
        · rw [he, setMapping_same]; exact g3 j hj
        · rw [setMapping_other b m1 he]

theorem loadSettings_frame (c : Conv K) (l : List (String × JVal K)) : ∀ (any ok : Bool) (b b' : Brush K),
    Good b → loadSettings c l any b = .ok (ok, b') →
    Good b' ∧ (∀ id, (∀ e ∈ l, asUnsigned (settingFromCname e.1) ≠ id) → b' id = b id) ∧
      ∀ id j, (∀ e ∈ l, asUnsigned (settingFromCname e.1) = id →
        ∀ i ∈ inputsOf e.2, asUnsigned (inputFromCname i.1) ≠ j) → (b' id).pts j = (b id).pts j := by
  induction l with
  | nil => intro any ok b b' hg h; cases h; exact ⟨hg, fun _ _ => rfl, fun _ _ _ => rfl⟩
  | cons e l ih =>
    intro any ok b b' hg h
    obtain ⟨name, v⟩ := e
    unfold loadSettings at h
    cases h1 : loadSetting c name v b with
    | error e => rw [h1] at h; exact absurd h (by simp [bind, Except.bind])
    | ok r =>
      obtain ⟨ok1, b1⟩ := r
      rw [h1] at h
      obtain ⟨f1, f2, f3⟩ := loadSetting_frame c name v b b1 ok1 hg h1
      obtain ⟨g1, g2, g3⟩ := ih (any || ok1) ok b1 b' f1 h
      refine ⟨g1, ?_, ?_⟩
      · intro id hid
        rw [g2 id (fun e he => hid e (by simp [he])), f2 id (hid (name, v) (by simp))]
      · intro id j hj
        rw [g3 id j (fun e he => hj e (by simp [he]))]
        by_cases he : asUnsigned (settingFromCname name) = id
        · exact f3 id j (hj (name, v) (by simp) he)
        · rw [f2 id he]

end Verif.Load
