import Verif.Model.Mapping
import Mathlib.Data.Rat.Defs
import Mathlib.Algebra.Order.Ring.Rat
import Mathlib.Algebra.BigOperators.Group.List.Basic
import Mathlib.Tactic.NormNum
import Mathlib.Tactic.Linarith
import Mathlib.Tactic.Positivity
import Mathlib.Tactic.FieldSimp
import Mathlib.Tactic.Ring

/-!
# C30, C31, C32: brush dynamics curves
-/

namespace Verif.Map

variable {K : Type} [Field K] [LinearOrder K] [IsStrictOrderedRing K]

/-! ## Specification -/

/-- The point at abscissa `x` on the line through `(x0, y0)` and `(x1, y1)`. -/
def line (x0 y0 x1 y1 x : K) : K := y0 + (x - x0) / (x1 - x0) * (y1 - y0)

/-- The control points are in order (equal abscissas allowed). -/
def Points.Sorted (p : Points K) : Prop := ∀ i j, i ≤ j → j < p.n → p.xs i ≤ p.xs j

/-- No input has control points. -/
def NoCurve (m : Mapping K) : Prop := ∀ j < m.inputs, (m.pts j).n = 0

/-! ## C30 -/

omit [IsStrictOrderedRing K] in
/-- The segment chosen: its right end `k` is not the first point; everything before `k - 1` … lies left of
`x`, and `x` lies left of `k` unless `k` is the last point. -/
theorem findSegment_spec (p : Points K) (x : K) (hn : 2 ≤ p.n) : ∀ fuel i, 2 ≤ i → i ≤ p.n → p.n ≤ fuel + i →
    (∀ k, 1 ≤ k → k + 1 < i → p.xs k < x) →
    let r := findSegment p x fuel i
    1 ≤ r ∧ r < p.n ∧ (∀ k, 1 ≤ k → k < r → p.xs k < x) ∧ (r + 1 < p.n → x ≤ p.xs r) := by
  intro fuel
  induction fuel with
  | zero =>
    intro i h2 hi hf hlt
    have : i = p.n := by omega
    subst this
    refine ⟨by unfold findSegment; omega, by unfold findSegment; omega, ?_, ?_⟩
    · intro k h1 hk; unfold findSegment at hk; exact hlt k h1 (by omega)
    · intro h; unfold findSegment at h; omega
  | succ fuel ih =>
    intro i h2 hi hf hlt
    unfold findSegment
    split_ifs with h
    · refine ih (i + 1) (by omega) (by omega) (by omega) ?_
      intro k h1 hk
      rcases Nat.lt_or_ge (k + 1) i with h' | h'
      · exact hlt k h1 h'
      · rw [show k = i - 1 by omega]; exact h.2
    · refine ⟨by omega, by omega, fun k h1 hk => hlt k h1 (by omega), ?_⟩
      intro hr
      by_contra hc
      exact h ⟨by omega, not_le.mp hc⟩

theorem evaluate_segment (p : Points K) (x : K) {k : Nat} (h : findSegment p x p.n 2 = k + 1)
    (hx : p.xs k < p.xs (k + 1)) :
    evaluate p x = line (p.xs k) (p.ys k) (p.xs (k + 1)) (p.ys (k + 1)) x := by
  unfold evaluate line
  simp only [h, Nat.add_sub_cancel]
  have hd : p.xs (k + 1) - p.xs k ≠ 0 := (sub_pos.mpr hx).ne'
  split_ifs with hc
  · rcases hc with hc | hc
    · exact absurd hc hx.ne
    · rw [hc]; ring
  · field_simp
    ring

/-- **C30, between two control points** (the left one excluded, which matters only if several points
share its abscissa): the curve is the line through them. -/
theorem evaluate_between (p : Points K) (hn : 2 ≤ p.n) (hs : p.Sorted) (k : Nat) (hk : k + 1 < p.n) (x : K)
    (h0 : p.xs k < x) (h1 : x ≤ p.xs (k + 1)) :
    evaluate p x = line (p.xs k) (p.ys k) (p.xs (k + 1)) (p.ys (k + 1)) x := by
  obtain ⟨r1, r2, r3, r4⟩ := findSegment_spec p x hn p.n 2 (le_refl _) hn (by omega) (by omega)
  set r := findSegment p x p.n 2 with hr
  have : r = k + 1 := by
    rcases Nat.lt_trichotomy r (k + 1) with h | h | h
    · have := r4 (by omega)
      have := hs r k (by omega) (by omega)
      exact absurd h0 (not_lt.mpr (le_trans ‹x ≤ _› this))
    · exact h
    · have := r3 (k + 1) (by omega) h
      exact absurd this (not_lt.mpr h1)
  exact evaluate_segment p x (by rw [← hr, this]) (lt_of_lt_of_le h0 h1)

/-- **C30, at a control point**, unless another one shares its abscissa: exact. -/
theorem evaluate_at (p : Points K) (hn : 2 ≤ p.n) (hs : p.Sorted) (k : Nat) (hk : k < p.n)
    (hleft : 0 < k → p.xs (k - 1) < p.xs k) (hright : k + 1 < p.n → p.xs k < p.xs (k + 1)) :
    evaluate p (p.xs k) = p.ys k := by
  cases k with
  | zero =>
    have h01 := hright (by omega)
    obtain ⟨r1, r2, r3, r4⟩ := findSegment_spec p (p.xs 0) hn p.n 2 (le_refl _) hn (by omega) (by omega)
    have : findSegment p (p.xs 0) p.n 2 = 0 + 1 := by
      by_contra h
      have := r3 1 (by omega) (by omega)
      exact absurd this (not_lt.mpr (hs 0 1 (by omega) (by omega)))
    rw [evaluate_segment p _ this h01]
    unfold line
    simp
  | succ k =>
    have h := hleft (by omega)
    rw [Nat.add_sub_cancel] at h
    rw [evaluate_between p hn hs k hk _ h (le_refl _)]
    unfold line
    rw [div_self (sub_pos.mpr h).ne']
    ring

/-- **C30, left of all control points**: the first line is continued. -/
theorem evaluate_left (p : Points K) (hn : 2 ≤ p.n) (hs : p.Sorted) (h01 : p.xs 0 < p.xs 1) (x : K)
    (hx : x ≤ p.xs 0) : evaluate p x = line (p.xs 0) (p.ys 0) (p.xs 1) (p.ys 1) x := by
  obtain ⟨r1, r2, r3, r4⟩ := findSegment_spec p x hn p.n 2 (le_refl _) hn (by omega) (by omega)
  have : findSegment p x p.n 2 = 0 + 1 := by
    by_contra h
    have := r3 1 (by omega) (by omega)
    exact absurd this (not_lt.mpr (hx.trans h01.le))
  exact evaluate_segment p x this h01

/-- **C30, right of all control points**: the last line is continued. -/
theorem evaluate_right (p : Points K) (hn : 2 ≤ p.n) (hs : p.Sorted)
    (hl : p.xs (p.n - 2) < p.xs (p.n - 1)) (x : K) (hx : p.xs (p.n - 1) < x) :
    evaluate p x = line (p.xs (p.n - 2)) (p.ys (p.n - 2)) (p.xs (p.n - 1)) (p.ys (p.n - 1)) x := by
  obtain ⟨r1, r2, r3, r4⟩ := findSegment_spec p x hn p.n 2 (le_refl _) hn (by omega) (by omega)
  have : findSegment p x p.n 2 = p.n - 2 + 1 := by
    by_contra h
    have h1 := r4 (by omega)
    have h2 := hs (findSegment p x p.n 2) (p.n - 1) (by omega) (by omega)
    exact absurd hx (not_lt.mpr (h1.trans h2))
  rw [evaluate_segment p x this (by rw [show p.n - 2 + 1 = p.n - 1 by omega]; exact hl),
    show p.n - 2 + 1 = p.n - 1 by omega]

/-- Between two control points the value lies between their values. -/
theorem evaluate_within (p : Points K) (hn : 2 ≤ p.n) (hs : p.Sorted) (k : Nat) (hk : k + 1 < p.n) (x : K)
    (h0 : p.xs k < x) (h1 : x ≤ p.xs (k + 1)) :
    min (p.ys k) (p.ys (k + 1)) ≤ evaluate p x ∧ evaluate p x ≤ max (p.ys k) (p.ys (k + 1)) := by
  rw [evaluate_between p hn hs k hk x h0 h1]
  unfold line
  have hd : 0 < p.xs (k + 1) - p.xs k := sub_pos.mpr (lt_of_lt_of_le h0 h1)
  have t0 : 0 ≤ (x - p.xs k) / (p.xs (k + 1) - p.xs k) := by
    have := sub_pos.mpr h0
    positivity
  have t1 : (x - p.xs k) / (p.xs (k + 1) - p.xs k) ≤ 1 := by
    rw [div_le_one hd]; linarith
  generalize (x - p.xs k) / (p.xs (k + 1) - p.xs k) = t at t0 t1
  rcases le_total (p.ys k) (p.ys (k + 1)) with h | h
  · rw [min_eq_left h, max_eq_right h]
    constructor <;> nlinarith
  · rw [min_eq_right h, max_eq_left h]
    constructor <;> nlinarith

/-- Several points at one abscissa: the curve jumps; at that abscissa it has the value of the first of them,
right of it the next line begins. If they are the last points, all but the first are ignored: right of them the
curve continues with the value of the last but one, not with that of the last. -/
theorem last_step_ignored (p : Points K) (hn : 2 ≤ p.n) (hs : p.Sorted)
    (hl : p.xs (p.n - 2) = p.xs (p.n - 1)) (x : K) (hx : p.xs (p.n - 1) < x) :
    evaluate p x = p.ys (p.n - 2) := by
  obtain ⟨r1, r2, r3, r4⟩ := findSegment_spec p x hn p.n 2 (le_refl _) hn (by omega) (by omega)
  have : findSegment p x p.n 2 = p.n - 2 + 1 := by
    by_contra h
    have h1 := r4 (by omega)
    have h2 := hs (findSegment p x p.n 2) (p.n - 1) (by omega) (by omega)
    exact absurd hx (not_lt.mpr (h1.trans h2))
  unfold evaluate
  simp only [this, Nat.add_sub_cancel]
  rw [if_pos (Or.inl (by rw [show p.n - 2 + 1 = p.n - 1 by omega]; exact hl))]

omit [LinearOrder K] [IsStrictOrderedRing K] in
theorem foldl_add_sum (f : Nat → K) (g : Nat → Bool) (l : List Nat) (b : K) :
    l.foldl (fun r j => if g j = true then r + f j else r) b = b + ((l.filter g).map f).sum := by
  induction l generalizing b with
  | nil => simp
  | cons j l ih =>
    rw [List.foldl_cons, ih]
    by_cases h : g j = true
    · rw [if_pos h, List.filter_cons_of_pos h, List.map_cons, List.sum_cons, add_assoc]
    · rw [if_neg h, List.filter_cons_of_neg h]

/-! ## C31 -/

/-- What the histories preserve. -/
structure Inv (m : Mapping K) : Prop where
  used : m.used = (((List.range m.inputs).filter fun j => (m.pts j).n ≠ 0).length : Int)
  size : ∀ j < m.inputs, (m.pts j).n ≠ 1 ∧ (m.pts j).n ≤ 64

omit [LinearOrder K] [IsStrictOrderedRing K] in
theorem count_update (f g : Nat → Bool) (n i : Nat) (hi : i < n) (h : ∀ j, j ≠ i → f j = g j) :
    (((List.range n).filter f).length : Int) + (if g i then 1 else 0) =
      ((List.range n).filter g).length + (if f i then 1 else 0) := by
  induction n with
  | zero => omega
  | succ n ih =>
    rw [List.range_succ, List.filter_append, List.filter_append, List.length_append, List.length_append]
    by_cases hin : i = n
    · subst hin
      have : (List.range i).filter f = (List.range i).filter g := by
        apply List.filter_congr
        intro j hj
        rw [List.mem_range] at hj
        exact h j (by omega)
      rw [this]
      cases hf : f i <;> cases hg : g i <;> simp [hf, hg] <;> omega
    · have := ih (by omega)
      have e : f n = g n := h n (by omega)
      cases hg : g n <;> simp [e, hg] <;> omega

omit [IsStrictOrderedRing K] in
theorem setN_inv {m m' : Mapping K} (hm : Inv m) {input n : Int} (h : setN m input n = .ok m') :
    Inv m' ∧ m'.inputs = m.inputs := by
  unfold setN at h
  by_cases h1 : 0 ≤ input ∧ input < m.inputs
  · by_cases h2 : 0 ≤ n ∧ n ≤ 64
    · by_cases h3 : n = 1
      · simp [h1, h2, h3] at h
      · rw [if_neg (not_not.mpr h1), if_neg (not_not.mpr h2), if_neg h3] at h
        dsimp only at h
        split_ifs at h
        all_goals
          cases h
          refine ⟨⟨?_, ?_⟩, rfl⟩
          · have hc := count_update (fun j => decide ((m.pts j).n ≠ 0))
              (fun j => decide (((update m input.toNat { m.pts input.toNat with n := n.toNat }).pts j).n ≠ 0))
              m.inputs input.toNat (by omega) (by
                intro j hj
                simp only [update, if_neg hj])
            have hu := hm.used
            have e : ((update m input.toNat { m.pts input.toNat with n := n.toNat }).pts input.toNat).n = n.toNat := by
              simp [update]
            simp only [e, decide_eq_true_eq] at hc
            have hin : (update m input.toNat { m.pts input.toNat with n := n.toNat }).inputs = m.inputs := rfl
            simp only [hin] at *
            split_ifs at hc <;> omega
          · intro j hj
            by_cases e : j = input.toNat
            · subst e
              simp only [update, if_true]
              omega
            · simp only [update, if_neg e]
              exact hm.size j hj
    · rw [if_neg (not_not.mpr h1), if_pos h2] at h; cases h
  · rw [if_pos h1] at h; cases h

omit [IsStrictOrderedRing K] in
theorem setPoint_inv {m m' : Mapping K} (hm : Inv m) {input index : Int} {x y : K}
    (h : setPoint m input index x y = .ok m') : Inv m' ∧ m'.inputs = m.inputs := by
  unfold setPoint at h
  dsimp only at h
  split_ifs at h
  all_goals
    cases h
    have hn : ∀ (xs ys : Nat → K) (j : Nat),
        ((update m input.toNat { m.pts input.toNat with xs := xs, ys := ys }).pts j).n = (m.pts j).n := by
      intro xs ys j
      by_cases e : j = input.toNat
      · subst e; simp [update]
      · simp [update, e]
    refine ⟨⟨?_, ?_⟩, rfl⟩
    · have := hm.used
      simp only [hn]
      exact this
    · intro j hj
      simp only [hn]
      exact hm.size j hj

omit [IsStrictOrderedRing K] in
theorem run_inv (es : List (Edit K)) : ∀ {m m' : Mapping K}, Inv m → run m es = .ok m' →
    Inv m' ∧ m'.inputs = m.inputs := by
  induction es with
  | nil => intro m m' hm h; cases h; exact ⟨hm, rfl⟩
  | cons e es ih =>
    intro m m' hm h
    cases he : edit m e with
    | error f => simp only [run, he, bind, Except.bind] at h; cases h
    | ok m1 =>
      simp only [run, he, bind, Except.bind] at h
      have h1 : Inv m1 ∧ m1.inputs = m.inputs := by
        cases e with
        | base v => cases he; exact ⟨⟨hm.used, hm.size⟩, rfl⟩
        | setN i n => exact setN_inv hm he
        | setPoint i k x y => exact setPoint_inv hm he
      obtain ⟨h2, h3⟩ := ih h1.1 h
      exact ⟨h2, h3.trans h1.2⟩

omit [IsStrictOrderedRing K] in
theorem new_inv (mem : Nat → Points K) (inputs : Nat) : Inv (new mem inputs) :=
  ⟨by simp [new], fun j _ => by simp [new]⟩

omit [IsStrictOrderedRing K] in
theorem constant_iff {m : Mapping K} (h : Inv m) : isConstant m = true ↔ NoCurve m := by
  unfold isConstant NoCurve
  rw [decide_eq_true_eq, h.used]
  constructor
  · intro h0 j hj
    have : (List.range m.inputs).filter (fun j => (m.pts j).n ≠ 0) = [] :=
      List.eq_nil_of_length_eq_zero (by exact_mod_cast h0)
    rw [List.filter_eq_nil_iff] at this
    simpa using this j (List.mem_range.mpr hj)
  · intro h0
    have : (List.range m.inputs).filter (fun j => (m.pts j).n ≠ 0) = [] := by
      rw [List.filter_eq_nil_iff]
      intro j hj
      simpa using h0 j (List.mem_range.mp hj)
    rw [this]; rfl

omit [IsStrictOrderedRing K] in
/-- **C31.** After any history of edits of a new mapping, `is_constant` is TRUE exactly if no input has
control points, and then the mapping evaluates to its base value whatever the inputs. -/
theorem is_constant_truthful (mem : Nat → Points K) (inputs : Nat) (es : List (Edit K)) (m : Mapping K)
    (h : run (new mem inputs) es = .ok m) :
    (isConstant m = true ↔ NoCurve m) ∧ (isConstant m = true → ∀ data, calculate m data = m.base) := by
  have hm := (run_inv es (new_inv mem inputs) h).1
  refine ⟨constant_iff hm, fun hc data => ?_⟩
  unfold calculate
  unfold isConstant at hc
  rw [if_pos (by simpa using hc)]

omit [IsStrictOrderedRing K] in
/-- **C30, the sum.** After any history the mapped value is the base value plus the values of the curves of
those inputs that have one. -/
theorem calculate_sum (mem : Nat → Points K) (inputs : Nat) (es : List (Edit K)) (m : Mapping K)
    (h : run (new mem inputs) es = .ok m) (data : Nat → K) :
    calculate m data = m.base + (((List.range inputs).filter fun j => (m.pts j).n ≠ 0).map fun j =>
      evaluate (m.pts j) (data j)).sum := by
  obtain ⟨hm, hin⟩ := run_inv es (new_inv mem inputs) h
  have hin' : m.inputs = inputs := hin
  unfold calculate
  rw [← hin']
  split_ifs with h0
  · have : (List.range m.inputs).filter (fun j => (m.pts j).n ≠ 0) = [] := by
      apply List.eq_nil_of_length_eq_zero
      have := hm.used
      rw [h0] at this
      exact_mod_cast this.symm
    rw [this]; simp
  · have := foldl_add_sum (fun j => evaluate (m.pts j) (data j)) (fun j => decide ((m.pts j).n ≠ 0))
      (List.range m.inputs) m.base
    simp only [decide_eq_true_eq] at this
    exact this

omit [IsStrictOrderedRing K] in
/-- Inputs without a curve have no influence. -/
theorem calculate_ignores (mem : Nat → Points K) (inputs : Nat) (es : List (Edit K)) (m : Mapping K)
    (h : run (new mem inputs) es = .ok m) (data data' : Nat → K)
    (hd : ∀ j < inputs, (m.pts j).n ≠ 0 → data j = data' j) : calculate m data = calculate m data' := by
  rw [calculate_sum mem inputs es m h, calculate_sum mem inputs es m h]
  congr 2
  apply List.map_congr_left
  intro j hj
  rw [List.mem_filter, List.mem_range] at hj
  rw [hd j hj.1 (by simpa using hj.2)]

omit [IsStrictOrderedRing K] in
/-- A curve has no points or 2 to 64. -/
theorem point_count (mem : Nat → Points K) (inputs : Nat) (es : List (Edit K)) (m : Mapping K)
    (h : run (new mem inputs) es = .ok m) (j : Nat) (hj : j < inputs) :
    (m.pts j).n = 0 ∨ (2 ≤ (m.pts j).n ∧ (m.pts j).n ≤ 64) := by
  obtain ⟨hm, hin⟩ := run_inv es (new_inv mem inputs) h
  have hin' : m.inputs = inputs := hin
  have := hm.size j (by rw [hin']; exact hj)
  omega

omit [IsStrictOrderedRing K] in
/-- In a reachable mapping `set_n` aborts only for arguments that are out of range: the assertions about the
internal counter never fail. -/
theorem setN_succeeds (mem : Nat → Points K) (inputs : Nat) (es : List (Edit K)) (m : Mapping K)
    (h : run (new mem inputs) es = .ok m) (input n : Int) (hi : 0 ≤ input ∧ input < inputs)
    (hn : 0 ≤ n ∧ n ≤ 64) (h1 : n ≠ 1) : ∃ m', setN m input n = .ok m' ∧ (m'.pts input.toNat).n = n.toNat ∧
      (∀ j, j ≠ input.toNat → m'.pts j = m.pts j) ∧ m'.base = m.base := by
  obtain ⟨hm, hin⟩ := run_inv es (new_inv mem inputs) h
  have hin' : m.inputs = inputs := hin
  have hu := hm.used
  have hc := count_update (fun j => decide ((m.pts j).n ≠ 0))
    (fun j => if j = input.toNat then decide (n ≠ 0) else decide ((m.pts j).n ≠ 0))
    m.inputs input.toNat (by omega) (by intro j hj; simp only [if_neg hj])
  simp only [if_true, decide_eq_true_eq] at hc
  have hb := List.length_filter_le
    (fun j => if j = input.toNat then decide (n ≠ 0) else decide ((m.pts j).n ≠ 0)) (List.range m.inputs)
  rw [List.length_range] at hb
  unfold setN
  rw [if_neg (by rw [not_not, hin']; exact hi), if_neg (not_not.mpr hn), if_neg h1]
  dsimp only
  split_ifs at hc ⊢
  all_goals first
    | exfalso; omega
    | exact ⟨_, rfl, by simp [update], fun j hj => by simp [update, hj], rfl⟩

/-! ## Uninitialised control points -/

/-- `set_n` does not initialise the points it adds: what the fresh memory held is visible in the mapped value. -/
theorem unset_points_are_visible : ∃ (mem mem' : Nat → Points ℚ) (m m' : Mapping ℚ),
    run (new mem 1) [.setN 0 2] = .ok m ∧ run (new mem' 1) [.setN 0 2] = .ok m' ∧
      calculate m (fun _ => 0) ≠ calculate m' (fun _ => 0) :=
  ⟨fun _ => ⟨fun _ => 0, fun _ => 1, 0⟩, fun _ => ⟨fun _ => 0, fun _ => 2, 0⟩, _, _, rfl, rfl, by decide +kernel⟩

/-! ## C32 -/

/-- Setting the points `k, k+1, …` of an input one after the other, as the brush loader does. -/
def setPoints (m : Mapping K) (input : Int) : Nat → List (K × K) → Except Fault (Mapping K)
  | _, [] => .ok m
  | k, (x, y) :: l => do setPoints (← setPoint m input k x y) input (k + 1) l

omit [IsStrictOrderedRing K] in
theorem setPoints_spec (input : Nat) (l : List (K × K)) : ∀ (m : Mapping K) (k : Nat),
    input < m.inputs → k + l.length ≤ (m.pts input).n → (m.pts input).n ≤ 64 →
    (∀ i j, i ≤ j → j < k → (m.pts input).xs i ≤ (m.pts input).xs j) →
    ((∃ m', setPoints m input k l = .ok m') ↔
      ((0 < k → ∀ v ∈ l.head?, (m.pts input).xs (k - 1) ≤ v.1) ∧ (l.map (·.1)).IsChain (· ≤ ·))) ∧
    ∀ m', setPoints m input k l = .ok m' → m'.inputs = m.inputs ∧ (m'.pts input).n = (m.pts input).n ∧
      (∀ i < k, (m'.pts input).xs i = (m.pts input).xs i ∧ (m'.pts input).ys i = (m.pts input).ys i) ∧
      (∀ i, ∀ v, l[i]? = some v → (m'.pts input).xs (k + i) = v.1 ∧ (m'.pts input).ys (k + i) = v.2) ∧
      (∀ i j, i ≤ j → j < k + l.length → (m'.pts input).xs i ≤ (m'.pts input).xs j) := by
  induction l with
  | nil =>
    intro m k hin hlen h64 hs
    refine ⟨⟨fun _ => ⟨by simp, by simp⟩, fun _ => ⟨m, rfl⟩⟩, ?_⟩
    intro m' h
    cases h
    exact ⟨rfl, rfl, fun i _ => ⟨rfl, rfl⟩, by simp, by simpa using hs⟩
  | cons v l ih =>
    obtain ⟨x, y⟩ := v
    intro m k hin hlen h64 hs
    rw [List.length_cons] at hlen
    by_cases hx : 0 < k → (m.pts input).xs (k - 1) ≤ x
    · set m1 : Mapping K := update m input { m.pts input with
          xs := fun i => if i = k then x else (m.pts input).xs i
          ys := fun i => if i = k then y else (m.pts input).ys i } with hm1
      have e : setPoint m input k x y = .ok m1 := by
        unfold setPoint
        simp only [Int.toNat_natCast]
        rw [if_neg (by omega), if_neg (by omega), if_neg (by omega), if_neg]
        rintro ⟨h1, h2⟩
        exact h2 (hx (by omega))
      have p1 : m1.pts input = { m.pts input with
          xs := fun i => if i = k then x else (m.pts input).xs i
          ys := fun i => if i = k then y else (m.pts input).ys i } := by simp [hm1, update]
      have hs1 : ∀ i j, i ≤ j → j < k + 1 → (m1.pts input).xs i ≤ (m1.pts input).xs j := by
        intro i j hij hj
        rw [p1]
        simp only
        by_cases hjk : j = k
        · subst hjk
          rw [if_pos rfl]
          by_cases hik : i = j
          · rw [if_pos hik]
          · rw [if_neg hik]
            exact (hs i (j - 1) (by omega) (by omega)).trans (hx (by omega))
        · rw [if_neg hjk, if_neg (by omega)]
          exact hs i j hij (by omega)
      obtain ⟨ih1, ih2⟩ := ih m1 (k + 1) hin (by rw [p1]; simp only; omega) (by rw [p1]; exact h64) hs1
      have eq : setPoints m input k ((x, y) :: l) = setPoints m1 input (k + 1) l := by
        rw [setPoints, e]; rfl
      rw [eq]
      refine ⟨?_, ?_⟩
      · rw [ih1]
        have xk : (m1.pts input).xs (k + 1 - 1) = x := by rw [p1]; simp
        rw [xk]
        constructor
        · rintro ⟨h1, h2⟩
          refine ⟨fun hk v hv => by cases hv; exact hx hk, ?_⟩
          rw [List.map_cons, List.isChain_cons]
          refine ⟨?_, h2⟩
          intro w hw
          cases l with
          | nil => cases hw
          | cons v l => cases hw; exact h1 (by omega) v rfl
        · rintro ⟨h1, h2⟩
          rw [List.map_cons, List.isChain_cons] at h2
          refine ⟨fun _ v hv => ?_, h2.2⟩
          cases l with
          | nil => cases hv
          | cons w l => cases hv; exact h2.1 _ rfl
      · intro m' hm'
        obtain ⟨a1, a2, a3, a4, a5⟩ := ih2 m' hm'
        refine ⟨a1, by rw [a2, p1], ?_, ?_, ?_⟩
        · intro i hi
          have := a3 i (by omega)
          rw [this.1, this.2, p1]
          simp only
          rw [if_neg (by omega), if_neg (by omega)]
          exact ⟨rfl, rfl⟩
        · intro i v hv
          cases i with
          | zero =>
            cases hv
            have := a3 k (by omega)
            rw [Nat.add_zero, this.1, this.2, p1]
            simp
          | succ i =>
            have := a4 i v (by simpa using hv)
            rw [show k + (i + 1) = k + 1 + i by omega]
            exact this
        · intro i j hij hj
          rw [List.length_cons] at hj
          exact a5 i j hij (by omega)
    · have e : setPoint m input k x y = .error .assertFail := by
        unfold setPoint
        simp only [Int.toNat_natCast]
        rw [if_neg (by omega), if_neg (by omega), if_neg (by omega), if_pos]
        have : 0 < k := by by_contra h; exact hx fun h' => absurd h' h
        exact ⟨by omega, fun h => hx fun _ => h⟩
      have eq : setPoints m input k ((x, y) :: l) = .error .assertFail := by
        rw [setPoints, e]; rfl
      rw [eq]
      refine ⟨⟨fun h => ?_, fun h => absurd (fun hk => h.1 hk (x, y) rfl) hx⟩, fun m' h => by cases h⟩
      obtain ⟨m', h⟩ := h
      cases h

omit [IsStrictOrderedRing K] in
/-- **C32, partial.** If the points of an input are set one after the other from the first to the last,
the assertions accept exactly the lists in increasing order, and the curve then consists of just these points,
sorted. What is missing, that setting single points keeps the curve sorted, is false, see
`points_can_become_unsorted`. -/
theorem points_sorted_partial (m : Mapping K) (input : Nat) (l : List (K × K)) (hin : input < m.inputs)
    (hlen : l.length = (m.pts input).n) (h64 : l.length ≤ 64) :
    ((∃ m', setPoints m input 0 l = .ok m') ↔ (l.map (·.1)).IsChain (· ≤ ·)) ∧
    ∀ m', setPoints m input 0 l = .ok m' → (m'.pts input).Sorted ∧ (m'.pts input).n = l.length ∧
      ∀ (i : Nat) (v : K × K), l[i]? = some v → getPoint m' input i = .ok v := by
  obtain ⟨h1, h2⟩ := setPoints_spec input l m 0 hin (by omega) (by omega) (by omega)
  refine ⟨by rw [h1]; simp, ?_⟩
  intro m' h
  obtain ⟨a1, a2, a3, a4, a5⟩ := h2 m' h
  refine ⟨fun i j hij hj => a5 i j hij (by omega), by omega, ?_⟩
  intro i v hv
  have hi : i < l.length := by
    by_contra hc
    rw [List.getElem?_eq_none (by omega)] at hv
    cases hv
  unfold getPoint
  simp only [Int.toNat_natCast]
  rw [if_neg (by omega), if_neg (by omega), if_neg (by omega)]
  have := a4 i v hv
  rw [Nat.zero_add] at this
  rw [this.1, this.2]

/-- **C32, negated.** Setting the first point last is not checked against the second: a history without a
failing assertion ends with points in decreasing order, for whatever the memory held before. -/
theorem points_can_become_unsorted (mem : Nat → Points ℚ) :
    ∃ m, run (new mem 1) [.setN 0 2, .setPoint 0 0 0 0, .setPoint 0 1 1 1, .setPoint 0 0 5 0] = .ok m ∧
      ¬ (m.pts 0).Sorted ∧ getPoint m 0 0 = .ok (5, 0) ∧ getPoint m 0 1 = .ok (1, 1) := by
  refine ⟨_, rfl, ?_, rfl, rfl⟩
  intro h
  have : (5 : ℚ) ≤ 1 := h 0 1 (by omega) (show (1 : Nat) < 2 by omega)
  norm_num at this

/-! ## Concrete cases -/

def demoMem : Nat → Points ℚ := fun _ => ⟨fun _ => 7, fun _ => -3, 9⟩

/-- A curve through (0,0), (1/2,1), (1,1/2) for the second of three inputs. -/
def demoHistory : List (Edit ℚ) :=
  [.base 2, .setN 1 3, .setPoint 1 0 0 0, .setPoint 1 1 (1 / 2) 1, .setPoint 1 2 1 (1 / 2)]

def demoEval (es : List (Edit ℚ)) (x : ℚ) : Option ℚ :=
  match run (new demoMem 3) es with
  | .ok m => some (calculate m fun j => if j = 1 then x else 100)
  | .error _ => none

/-- Non-vacuity: at the points, between, and outside; removing the curve again. -/
example : demoEval demoHistory 0 = some 2 ∧ demoEval demoHistory (1 / 2) = some 3 ∧
    demoEval demoHistory (1 / 4) = some (5 / 2) ∧ demoEval demoHistory (3 / 4) = some (11 / 4) ∧
    demoEval demoHistory 2 = some (3 / 2) ∧ demoEval demoHistory (-1) = some 0 ∧
    demoEval (demoHistory ++ [.setN 1 0]) 5 = some 2 := by decide +kernel

end Verif.Map
