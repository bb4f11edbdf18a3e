import Verif.Lemmas.Symmetry
import Verif.Lemmas.Mask

/-! The table of matrices: what `update` writes, and where. -/

namespace Verif.Symm

theorem f32_id {n : Int} (h0 : -16777216 < n) (h1 : n < 16777216) : f32 n = n := by
  have h : Blend.rne24Nat n.natAbs = n.natAbs := by
    unfold Blend.rne24Nat; rw [if_pos (by omega)]
  unfold f32 Blend.rne24
  rw [h]
  split <;> omega

section
variable {K : Type} [Field K] [LinearOrder K]

open Verif.Mask (cRange_nil cRange_cons)

theorem store_ok {d : Data K} {i : Int} (v : Transform K) (h0 : 0 ≤ i) (h1 : i < d.cap) :
    store d i v = .ok { d with cells := fun j => if j = i then v else d.cells j } := by
  unfold store; rw [if_pos ⟨h0, h1⟩]

theorem load_ok {d : Data K} {i : Int} (h0 : 0 ≤ i) (h1 : i < d.cap) :
    load d i = .ok (d.cells i) := by
  unfold load; rw [if_pos ⟨h0, h1⟩]

/-- A loop of stores. -/
theorem foldl_store (f : Int → Transform K) (off : Int) (n : Nat) :
    ∀ (lo hi : Int) (d : Data K), (hi - lo).toNat = n → 0 ≤ lo + off → (lo < hi → hi + off ≤ d.cap) →
      ∃ c, (cRange lo hi).foldlM (fun d i => store d (i + off) (f i)) d = .ok { d with cells := c } ∧
        ∀ j, c j = if lo + off ≤ j ∧ j < hi + off then f (j - off) else d.cells j := by
  induction n with
  | zero =>
    intro lo hi d hn _ _
    rw [cRange_nil (by omega)]
    refine ⟨d.cells, rfl, fun j => ?_⟩
    rw [if_neg (by omega)]
  | succ n ih =>
    intro lo hi d hn h0 h1
    have hlt : lo < hi := by omega
    rw [cRange_cons hlt, List.foldlM_cons, store_ok _ h0 (by have := h1 hlt; omega)]
    obtain ⟨c, hc, hj⟩ := ih (lo + 1) hi
      { d with cells := fun j => if j = lo + off then f lo else d.cells j } (by omega) (by omega)
      (fun _ => h1 hlt)
    refine ⟨c, hc, fun j => ?_⟩
    rw [hj j]
    by_cases e : j = lo + off
    · subst e
      rw [if_neg (by omega), if_pos (by omega)]
      simp
    · by_cases h : lo + off ≤ j ∧ j < hi + off
      · rw [if_pos h, if_pos (by omega)]
      · rw [if_neg h, if_neg (by omega)]
        simp [e]

/-- A loop of stores that runs past the end. -/
theorem foldl_store_oob (f : Int → Transform K) (off : Int) (n : Nat) :
    ∀ (lo hi : Int) (d : Data K), (d.cap - (lo + off)).toNat = n → 0 ≤ lo + off → lo + off ≤ d.cap →
      d.cap < hi + off →
      (cRange lo hi).foldlM (fun d i => store d (i + off) (f i)) d = .error .outOfBounds := by
  induction n with
  | zero =>
    intro lo hi d hn h0 h1 h2
    rw [cRange_cons (by omega), List.foldlM_cons]
    unfold store
    rw [if_neg (by omega)]
    rfl
  | succ n ih =>
    intro lo hi d hn h0 h1 h2
    rw [cRange_cons (by omega), List.foldlM_cons, store_ok _ h0 (by omega)]
    exact ih (lo + 1) hi { d with cells := _ } (by simp only; omega) (by omega) (by simp only; omega) (by simp only; omega)

/-- The loop of translations (symmetry.c 116-118). -/
theorem foldl_translate (x y : K) (n : Nat) :
    ∀ (lo hi : Int) (d : Data K), (hi - lo).toNat = n → 0 ≤ lo → (lo < hi → hi ≤ d.cap) →
      ∃ c, (cRange lo hi).foldlM (fun d i => do
          let m ← load d i
          store d i (translate m x y)) d = .ok { d with cells := c } ∧
        ∀ j, c j = if lo ≤ j ∧ j < hi then translate (d.cells j) x y else d.cells j := by
  induction n with
  | zero =>
    intro lo hi d hn _ _
    rw [cRange_nil (by omega)]
    refine ⟨d.cells, rfl, fun j => ?_⟩
    rw [if_neg (by omega)]
  | succ n ih =>
    intro lo hi d hn h0 h1
    have hlt : lo < hi := by omega
    rw [cRange_cons hlt, List.foldlM_cons, load_ok h0 (by have := h1 hlt; omega)]
    obtain ⟨c, hc, hj⟩ := ih (lo + 1) hi
      { d with cells := fun j => if j = lo then translate (d.cells lo) x y else d.cells j }
      (by omega) (by omega) (fun _ => h1 hlt)
    refine ⟨c, ?_, fun j => ?_⟩
    · rw [← hc]
      show (store d lo (translate (d.cells lo) x y) >>= _) = _
      rw [store_ok _ h0 (by have := h1 hlt; omega)]
      rfl
    · rw [hj j]
      by_cases e : j = lo
      · subst e
        rw [if_neg (by omega), if_pos (by omega)]
        simp
      · by_cases h : lo ≤ j ∧ j < hi
        · rw [if_pos h, if_pos (by omega)]
          simp [e]
        · rw [if_neg h, if_neg (by omega)]
          simp [e]

/-- Number of matrices of a state (exact arithmetic). -/
def count (s : State K) : Int :=
  match s.type with
  | .vertical => 1
  | .horizontal => 1
  | .verthorz => 3
  | .rotational => s.lines - 1
  | .snowflake => 2 * s.lines - 1
  | .other _ => 0

/-- The line counts for which nothing is rounded and nothing wraps. -/
def Small (s : State K) : Prop := 2 ≤ s.lines ∧ s.lines ≤ 1048576

theorem numRequired_eq {s : State K} (h : Small s) : numRequired s = count s := by
  obtain ⟨h0, h1⟩ := h
  unfold numRequired count
  cases s.type with
  | rotational => exact f32_id (by omega) (by omega)
  | snowflake =>
    show f32 (f32 (2 * s.lines) - 1) = _
    rw [f32_id (n := 2 * s.lines) (by omega) (by omega), f32_id (by omega) (by omega)]
  | _ => rfl

theorem count_bound {s : State K} (h : Small s) : 0 ≤ count s ∧ count s ≤ 2097151 := by
  obtain ⟨h0, h1⟩ := h
  unfold count
  cases s.type <;> simp only <;> omega

/-- The matrix with index `i` before the final translation. -/
def raw (trig : Trig K) (s : State K) (i : Int) : Transform K :=
  let angle := s.angle * (trig.pi / 180)
  let rot := 2 * trig.pi / (s.lines : K)
  let m := translate unit (-s.cx) (-s.cy)
  match s.type with
  | .vertical => reflect trig m (-(angle + trig.pi / 2))
  | .horizontal => reflect trig m (-angle)
  | .verthorz =>
    if i = 0 then reflect trig m (-angle)
    else if i = 1 then reflect trig (reflect trig m (-angle)) (-(angle + trig.pi / 2))
    else reflect trig (reflect trig (reflect trig m (-angle)) (-(angle + trig.pi / 2))) (-angle)
  | .rotational => rotateCw trig m (rot * ((i + 1 : Int) : K))
  | .snowflake =>
    if i < s.lines - 1 then rotateCw trig m (rot * ((i + 1 : Int) : K))
    else
      let k := i - (s.lines - 1)
      reflect trig (rotateCw trig m (rot * (k : K))) (-(k : K) * rot - angle)
  | .other _ => unit

theorem fill_rotational (trig : Trig K) (s : State K) (m : Transform K) (rot : K) (d : Data K)
    (h0 : 2 ≤ s.lines) (h1 : s.lines - 1 ≤ d.cap) :
    ∃ c, (cRange 1 s.lines).foldlM
        (fun d i => store d (i - 1) (rotateCw trig m (rot * (i : K)))) d = .ok { d with cells := c } ∧
      ∀ j, c j = if 0 ≤ j ∧ j < s.lines - 1 then rotateCw trig m (rot * ((j + 1 : Int) : K))
        else d.cells j := by
  obtain ⟨c, hc, hj⟩ := foldl_store (fun i => rotateCw trig m (rot * (i : K))) (-1) _ 1 s.lines d
    rfl (by omega) (fun _ => by omega)
  refine ⟨c, hc, fun j => ?_⟩
  rw [hj j]
  by_cases h : 0 ≤ j ∧ j < s.lines - 1
  · rw [if_pos h, if_pos (by omega)]
    congr 4
  · rw [if_neg h, if_neg (by omega)]

theorem fill_ok (trig : Trig K) (d : Data K) (s : State K) (hs : Small s) (hc : count s ≤ d.cap) :
    ∃ c, fill trig d s = .ok { d with cells := c } ∧
      ∀ j, 0 ≤ j → j < count s → c j = raw trig s j := by
  obtain ⟨h2, _⟩ := hs
  unfold fill raw
  cases ht : s.type with
  | vertical =>
    simp only [count, ht] at hc ⊢
    refine ⟨_, store_ok _ (by omega) (by omega), fun j a b => ?_⟩
    have : j = 0 := by omega
    subst this; simp
  | horizontal =>
    simp only [count, ht] at hc ⊢
    refine ⟨_, store_ok _ (by omega) (by omega), fun j a b => ?_⟩
    have : j = 0 := by omega
    subst this; simp
  | verthorz =>
    simp only [count, ht] at hc ⊢
    rw [store_ok _ (by omega) (by omega)]
    dsimp only [bind, Except.bind]
    rw [load_ok (by omega) (by show (0 : Int) < d.cap; omega)]
    dsimp only
    rw [store_ok _ (by omega) (by show (1 : Int) < d.cap; omega)]
    dsimp only
    rw [load_ok (by omega) (by show (1 : Int) < d.cap; omega)]
    dsimp only
    rw [store_ok _ (by omega) (by show (2 : Int) < d.cap; omega)]
    refine ⟨_, rfl, fun j a b => ?_⟩
    have : j = 0 ∨ j = 1 ∨ j = 2 := by omega
    rcases this with e | e | e <;> subst e <;> simp
  | rotational =>
    simp only [count, ht] at hc ⊢
    obtain ⟨c, h1, h3⟩ := fill_rotational trig s (translate unit (-s.cx) (-s.cy))
      (2 * trig.pi / (s.lines : K)) d h2 hc
    refine ⟨c, h1, fun j a b => ?_⟩
    rw [h3, if_pos ⟨a, b⟩]
  | snowflake =>
    simp only [count, ht] at hc ⊢
    obtain ⟨c, h1, h3⟩ := foldl_store (fun i => reflect trig
      (rotateCw trig (translate unit (-s.cx) (-s.cy)) (2 * trig.pi / (s.lines : K) * (i : K)))
      (-(i : K) * (2 * trig.pi / (s.lines : K)) - s.angle * (trig.pi / 180))) (s.lines - 1) _ 0
      s.lines d rfl (by omega) (fun _ => by omega)
    obtain ⟨c', h4, h5⟩ := fill_rotational trig s (translate unit (-s.cx) (-s.cy))
      (2 * trig.pi / (s.lines : K)) { d with cells := c } h2 (by show s.lines - 1 ≤ d.cap; omega)
    refine ⟨c', ?_, fun j a b => ?_⟩
    · have e : (fun (d : Data K) (i : Int) => store d (s.lines - 1 + i) (reflect trig
          (rotateCw trig (translate unit (-s.cx) (-s.cy)) (2 * trig.pi / (s.lines : K) * (i : K)))
          (-(i : K) * (2 * trig.pi / (s.lines : K)) - s.angle * (trig.pi / 180)))) =
        (fun d i => store d (i + (s.lines - 1)) (reflect trig
          (rotateCw trig (translate unit (-s.cx) (-s.cy)) (2 * trig.pi / (s.lines : K) * (i : K)))
          (-(i : K) * (2 * trig.pi / (s.lines : K)) - s.angle * (trig.pi / 180)))) := by
        funext d i; rw [Int.add_comm]
      rw [e, h1]
      exact h4
    · rw [h5]
      by_cases h : j < s.lines - 1
      · rw [if_pos ⟨a, h⟩, if_pos h]
      · rw [if_neg (by omega), if_neg h]
        show c j = _
        rw [h3, if_pos (by omega)]
  | other n =>
    refine ⟨d.cells, rfl, fun j a b => ?_⟩
    simp only [count, ht] at b
    omega

/-- The final matrix with index `i`. -/
def mat (trig : Trig K) (s : State K) (i : Int) : Transform K := translate (raw trig s i) s.cx s.cy

/-- The table holds the matrices of `s`. -/
def Holds (trig : Trig K) (d : Data K) (s : State K) : Prop :=
  count s ≤ d.cap ∧ ∀ j, 0 ≤ j → j < count s → d.cells j = mat trig s j

/-- The flag afterwards: it stays set for a type outside the enumeration. -/
def pcAfter (t : SymType) (b : Bool) : Bool :=
  match t with
  | .other _ => b
  | _ => false

/-- The table after `update` when there is enough room. -/
theorem refill_ok (trig : Trig K) (d : Data K) (s : State K) (hs : Small s) (hc : count s ≤ d.cap) :
    ∃ c, ((fill trig d s) >>= fun d => match s.type with
        | .other _ => .ok d
        | _ => do
          let d ← (cRange 0 (numRequired s)).foldlM (fun d i => do
            let m ← load d i
            store d i (translate m s.cx s.cy)) d
          .ok { d with pendingChanges := false }) =
        .ok { d with cells := c, pendingChanges := pcAfter s.type d.pendingChanges } ∧
      ∀ j, 0 ≤ j → j < count s → c j = mat trig s j := by
  obtain ⟨c, h1, h2⟩ := fill_ok trig d s hs hc
  rw [h1, numRequired_eq hs]
  obtain ⟨c', h3, h4⟩ := foldl_translate s.cx s.cy _ 0 (count s) { d with cells := c } rfl (by omega)
    (fun _ => hc)
  have hcase : (∃ n, s.type = .other n) ∨ ∀ n, s.type ≠ .other n := by
    cases s.type <;> simp
  rcases hcase with ⟨n, hn⟩ | hn
  · refine ⟨c, by rw [hn]; rfl, fun j a b => ?_⟩
    simp only [count, hn] at b; omega
  · refine ⟨c', ?_, fun j a b => ?_⟩
    · simp only [bind, Except.bind] at h3 ⊢
      cases ht : s.type with
      | other n => exact absurd ht (hn n)
      | _ => simp only [h3, pcAfter]
    · rw [h4 j, if_pos ⟨a, b⟩]
      show translate (c j) s.cx s.cy = _
      rw [h2 j a b]; rfl

/-- What holds of the symmetry data after every history of calls (`update_inv`, `setPending_inv`). -/
structure Inv (trig : Trig K) (d : Data K) : Prop where
  num0 : 0 ≤ d.num
  numCap : d.num ≤ d.cap
  holds : Holds trig d d.current
  cur : d.num ≠ 0 → count d.current ≤ d.num
  small : Small d.current ∨ ∃ n, d.current.type = .other n
  pend : Small d.pending

theorem allocate_eq (alloc : Int → Bool) (d : Data K) {n : Int} (h0 : 0 ≤ n) (h1 : n ≤ 2097151) :
    allocate alloc d n = if alloc (n * 36) = true then (true, { d with num := n, cap := n })
      else (false, { d with num := 0 }) := by
  have hb : toI32 (n * 36) = n * 36 := by unfold toI32; omega
  unfold allocate
  simp only [hb]
  by_cases h : alloc (n * 36) = true
  · rw [if_pos ⟨by omega, h⟩, if_pos h, Int.mul_ediv_cancel _ (by omega)]
  · rw [if_neg (fun q => h q.2), if_neg h]

/-- The three things a call of `update` can do. -/
theorem update_cases (trig : Trig K) (alloc : Int → Bool) {d : Data K} (hi : Inv trig d) :
    (update trig alloc d = .ok d ∧ (d.pendingChanges = true → statesEqual d.current d.pending = true)) ∨
    (update trig alloc d = .ok { d with num := 0 } ∧ alloc (count d.pending * 36) = false ∧
      statesEqual d.current d.pending = false ∧ d.num < count d.pending) ∨
    (∃ num cap c pc, update trig alloc d =
        .ok { d with current := d.pending, num := num, cap := cap, cells := c, pendingChanges := pc } ∧
      (num = d.num ∧ cap = d.cap ∧ count d.pending ≤ d.num ∨
        num = count d.pending ∧ cap = count d.pending ∧ d.num < count d.pending ∧
          alloc (count d.pending * 36) = true) ∧
      statesEqual d.current d.pending = false ∧
      (∀ j, 0 ≤ j → j < count d.pending → c j = mat trig d.pending j) ∧
      ((∀ n, d.pending.type ≠ .other n) → pc = false)) := by
  obtain ⟨b0, b1⟩ := count_bound hi.pend
  unfold update
  rw [numRequired_eq hi.pend]
  by_cases hskip : (!d.pendingChanges || statesEqual d.current d.pending) = true
  · rw [if_pos hskip]
    refine .inl ⟨rfl, fun h => ?_⟩
    simpa [h] using hskip
  · rw [if_neg hskip]
    have hne : statesEqual d.current d.pending = false := by
      cases h : statesEqual d.current d.pending <;> simp_all
    right
    by_cases hn : d.num < count d.pending
    · simp only [if_pos hn, allocate_eq alloc d b0 b1]
      by_cases ha : alloc (count d.pending * 36) = true
      · right
        simp only [if_pos ha]
        obtain ⟨c, h1, h2⟩ := refill_ok trig
          { d with num := count d.pending, cap := count d.pending, current := d.pending } d.pending
          hi.pend (le_refl _)
        refine ⟨count d.pending, count d.pending, c, pcAfter d.pending.type d.pendingChanges, ?_, .inr ⟨rfl, rfl, hn, ha⟩, hne, h2, ?_⟩
        · rw [numRequired_eq hi.pend] at h1
          exact h1
        · intro hno
          cases ht : d.pending.type with
          | other n => exact absurd ht (hno n)
          | _ => rfl
      · left
        simp only [if_neg ha]
        exact ⟨rfl, by simpa using ha, hne, hn⟩
    · right
      simp only [if_neg hn]
      obtain ⟨c, h1, h2⟩ := refill_ok trig { d with current := d.pending } d.pending
        hi.pend (by have := hi.numCap; show _ ≤ d.cap; omega)
      refine ⟨d.num, d.cap, c, pcAfter d.pending.type d.pendingChanges, ?_, .inl ⟨rfl, rfl, by omega⟩, hne, h2, ?_⟩
      · rw [numRequired_eq hi.pend] at h1
        exact h1
      · intro hno
        cases ht : d.pending.type with
        | other n => exact absurd ht (hno n)
        | _ => rfl

theorem update_inv (trig : Trig K) (alloc : Int → Bool) {d : Data K} (hi : Inv trig d) :
    ∃ d', update trig alloc d = .ok d' ∧ Inv trig d' ∧ d'.pending = d.pending ∧
      d'.active = d.active := by
  rcases update_cases trig alloc hi with ⟨h, _⟩ | ⟨h, _⟩ | ⟨num, cap, c, pc, h, hn, _, hc, _⟩
  · exact ⟨d, h, hi, rfl, rfl⟩
  · refine ⟨_, h, ⟨le_refl _, ?_, hi.holds, fun q => absurd rfl q, hi.small, hi.pend⟩, rfl, rfl⟩
    have := hi.num0; have := hi.numCap
    show 0 ≤ d.cap; omega
  · obtain ⟨b0, b1⟩ := count_bound hi.pend
    have := hi.num0; have := hi.numCap
    have h1 : 0 ≤ num ∧ num ≤ cap ∧ count d.pending ≤ cap ∧ (num ≠ 0 → count d.pending ≤ num) := by
      omega
    exact ⟨_, h, ⟨h1.1, h1.2.1, ⟨h1.2.2.1, hc⟩, h1.2.2.2, .inl hi.pend, hi.pend⟩, rfl, rfl⟩

theorem setPending_inv (trig : Trig K) {d : Data K} (hi : Inv trig d) (active : Bool)
    (cx cy angle : K) (type : SymType) {lines : Int} (hl : lines ≤ 1048576) :
    Inv trig (setPending d active cx cy angle type lines) := by
  refine ⟨hi.num0, hi.numCap, hi.holds, hi.cur, hi.small, ?_⟩
  show 2 ≤ f32 (max 2 lines) ∧ f32 (max 2 lines) ≤ 1048576
  rw [f32_id (by omega) (by omega)]
  omega

theorem default_inv (trig : Trig K) (alloc : Int → Bool) (garbage : Int → Transform K) :
    ∃ d, default trig alloc garbage = .ok d ∧ Inv trig d := by
  unfold default
  simp only [allocate_eq alloc _ (show (0 : Int) ≤ 16 by omega) (show (16 : Int) ≤ 2097151 by omega)]
  have hp : Small ({ type := .vertical, cx := 0, cy := 0, angle := 0, lines := 2 } : State K) := by
    unfold Small; constructor <;> simp
  by_cases ha : alloc (16 * 36) = true
  · simp only [if_pos ha]
    obtain ⟨d', h, hi, _⟩ := update_inv trig alloc (d :=
      { current := { type := .other (-1), cx := 0, cy := 0, angle := 0, lines := 0 }
        pending := { type := .vertical, cx := 0, cy := 0, angle := 0, lines := 2 }
        pendingChanges := true, active := false, num := 16, cap := 16, cells := garbage })
      ⟨by simp, by simp, ⟨by simp [count], by intro j a b; simp only [count] at b; omega⟩,
        by simp [count], .inr ⟨_, rfl⟩, hp⟩
    exact ⟨d', h, hi⟩
  · simp only [if_neg ha]
    exact ⟨_, rfl, ⟨by simp, by simp, ⟨by simp [count], by intro j a b; simp only [count] at b; omega⟩,
        by simp [count], .inr ⟨_, rfl⟩, hp⟩⟩

end
end Verif.Symm
