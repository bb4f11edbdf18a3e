import Verif.Props.C24_Symmetry
import Mathlib.Data.Set.Image

/-!
# C24 (count, bounding boxes), C25 (group) and C26 (histories)
-/

namespace Verif.Symm

section
variable {K : Type} [Field K] [LinearOrder K]

/-! ## Number of copies -/

/-- **C24.** 1, 1, 3, n − 1 and 2n − 1 copies besides the dab itself. -/
theorem copies_length (trig : Trig K) (s : State K) (h : 2 ≤ s.lines) :
    ((copies trig s).length : Int) =
      match s.type with
      | .vertical => 1
      | .horizontal => 1
      | .verthorz => 3
      | .rotational => s.lines - 1
      | .snowflake => 2 * s.lines - 1
      | .other _ => 0 := by
  unfold copies
  cases s.type <;> simp [cRange] <;> omega

/-! ## C26: when settings take effect -/

/-- The data agree with what the application asked for. -/
structure Agrees (trig : Trig K) (d : Data K) (w : Wish K) : Prop where
  inv : Inv trig d
  active : d.active = w.active
  wanted : d.pending = w.wanted
  inForce : d.current = w.inForce
  settled : d.pendingChanges = false → d.current = d.pending
  num : 0 < d.num

theorem statesEqual_iff (s t : State K) : statesEqual s t = true ↔ s = t := by
  obtain ⟨a1, a2, a3, a4, a5⟩ := s
  obtain ⟨b1, b2, b3, b4, b5⟩ := t
  simp [statesEqual]

/-- An allocator that always delivers. -/
def generous : Int → Bool := fun _ => true

theorem agrees_begin {trig : Trig K} {d : Data K} {w : Wish K} (h : Agrees trig d w) :
    ∃ d', update trig generous d = .ok d' ∧ Agrees trig d' (w.step (.begin generous)) := by
  obtain ⟨d', hd', hi', hp', ha'⟩ := update_inv trig generous h.inv
  refine ⟨d', hd', ?_⟩
  have e : d'.current = d.pending ∧ 0 < d'.num ∧
      (d'.pendingChanges = false → d'.current = d'.pending) := by
    rcases update_cases trig generous h.inv with ⟨h1, h2⟩ | ⟨h1, h2, _⟩ | ⟨n, c, f, pc, h1, h2, _, h3, h4⟩
    · rw [hd'] at h1; cases h1
      cases hpc : d.pendingChanges with
      | false => exact ⟨h.settled hpc, h.num, fun _ => h.settled hpc⟩
      | true =>
        have := (statesEqual_iff _ _).mp (h2 hpc)
        exact ⟨this, h.num, fun _ => this⟩
    · simp [generous] at h2
    · rw [hd'] at h1; cases h1
      refine ⟨rfl, ?_, fun _ => rfl⟩
      have := h.num
      have := (count_bound h.inv.pend).1
      show 0 < n
      omega
  exact ⟨hi', ha'.trans h.active, hp'.trans h.wanted, e.1.trans h.wanted, e.2.2, e.2.1⟩

theorem agrees_set {trig : Trig K} {d : Data K} {w : Wish K} (h : Agrees trig d w) (active : Bool)
    (cx cy angle : K) (type : SymType) (lines : Int) (hl : lines ≤ 1048576) :
    Agrees trig (setPending d active cx cy angle type lines)
      (w.step (.set active cx cy angle type lines)) := by
  refine ⟨setPending_inv trig h.inv active cx cy angle type hl, rfl, ?_, h.inForce, ?_, h.num⟩
  · show State.mk _ _ _ _ (f32 (max 2 lines)) = _
    rw [f32_id (by omega) (by omega)]; rfl
  · intro q; cases q

/-- Only calls with an allocator that delivers. -/
def Call.Delivers : Call K → Prop
  | .set _ _ _ _ _ _ => True
  | .begin alloc => alloc = generous

theorem default_agrees (trig : Trig K) (garbage : Int → Transform K) :
    ∃ d, default trig generous garbage = .ok d ∧ Agrees trig d Wish.fresh ∧ d.num = 16 := by
  unfold default
  simp only [allocate_eq generous _ (show (0 : Int) ≤ 16 by omega)
    (show (16 : Int) ≤ 2097151 by omega), generous]
  have hp : Small ({ type := .vertical, cx := 0, cy := 0, angle := 0, lines := 2 } : State K) := by
    unfold Small; constructor <;> simp
  have hag : Agrees trig
    { current := { type := .other (-1), cx := 0, cy := 0, angle := 0, lines := 0 }
      pending := { type := .vertical, cx := 0, cy := 0, angle := 0, lines := 2 }
      pendingChanges := true, active := false, num := 16, cap := 16, cells := garbage }
    ⟨false, { type := .vertical, cx := 0, cy := 0, angle := 0, lines := 2 },
      { type := .other (-1), cx := 0, cy := 0, angle := 0, lines := 0 }⟩ :=
    ⟨⟨by simp, by simp, ⟨by simp [count], by intro j a b; simp only [count] at b; omega⟩,
      by simp [count], .inr ⟨_, rfl⟩, hp⟩, rfl, rfl, rfl, by simp, by simp⟩
  obtain ⟨d', h1, h2⟩ := agrees_begin hag
  refine ⟨d', h1, h2, ?_⟩
  rcases update_cases trig generous hag.inv with ⟨h3, _⟩ | ⟨_, h3, _⟩ | ⟨n, c, f, pc, h3, h4, _⟩
  · rw [h1] at h3; cases h3; rfl
  · simp [generous] at h3
  · rw [h1] at h3; cases h3
    simp only [count] at h4
    show n = 16
    omega

/-- **C26.** For every history of settings and `begin_atomic` calls (with an allocator that delivers
and at most 2^20 lines), the transformations in force are exactly those of the setting that was the
last one at the last `begin_atomic`. -/
theorem setting_in_force (trig : Trig K) (garbage : Int → Transform K) (calls : List (Call K))
    (hs : ∀ c ∈ calls, c.Small) (hd : ∀ c ∈ calls, c.Delivers) :
    ∃ d, history trig generous garbage calls = .ok d ∧
      Agrees trig d (calls.foldl Wish.step Wish.fresh) := by
  obtain ⟨d, h, hi, hnum⟩ := default_agrees trig garbage
  clear hnum
  unfold history
  rw [h]
  show ∃ d', calls.foldlM (step trig) d = .ok d' ∧ _
  generalize (Wish.fresh : Wish K) = w at hi
  clear h
  induction calls generalizing d w with
  | nil => exact ⟨d, rfl, hi⟩
  | cons c calls ih =>
    have hs' : ∀ c ∈ calls, c.Small := fun c hc => hs c (List.mem_cons_of_mem _ hc)
    have hd' : ∀ c ∈ calls, c.Delivers := fun c hc => hd c (List.mem_cons_of_mem _ hc)
    have h0 := hs c List.mem_cons_self
    have h1 := hd c List.mem_cons_self
    rw [List.foldlM_cons, List.foldl_cons]
    cases c with
    | set active cx cy angle type lines =>
      exact ih hs' hd' _ _ (agrees_set hi active cx cy angle type lines h0)
    | begin alloc =>
      have h1 : alloc = generous := h1
      subst h1
      obtain ⟨d', h', hi'⟩ := agrees_begin hi
      show ∃ d'', (update trig generous d >>= fun d => calls.foldlM (step trig) d) = .ok d'' ∧ _
      rw [h']
      exact ih hs' hd' d' _ hi'

/-- **C26, allocation failures.** In every state that a history with failing allocations can reach,
`begin_atomic` either puts the last setting in force or switches symmetry off; it never leaves a
mixture. -/
theorem begin_atomic_all_or_nothing (trig : Trig K) (alloc : Int → Bool) {d : Data K}
    (hi : Inv trig d) (hs : d.pendingChanges = false → d.current = d.pending) :
    ∃ d', update trig alloc d = .ok d' ∧ (d'.current = d.pending ∨ d'.num = 0) ∧
      Holds trig d' d'.current := by
  obtain ⟨d', hd', hi', _⟩ := update_inv trig alloc hi
  refine ⟨d', hd', ?_, hi'.holds⟩
  rcases update_cases trig alloc hi with ⟨h1, h2⟩ | ⟨h1, _⟩ | ⟨n, c, f, pc, h1, _⟩
  · rw [hd'] at h1; cases h1
    cases hpc : d.pendingChanges with
    | false => exact .inl (hs hpc)
    | true => exact .inl ((statesEqual_iff _ _).mp (h2 hpc))
  · rw [hd'] at h1; cases h1; exact .inr rfl
  · rw [hd'] at h1; cases h1; exact .inl rfl

/-- Between two `begin_atomic` calls a new setting changes nothing but the on/off switch. -/
theorem set_only_switches (d : Data K) (active : Bool) (cx cy angle : K) (type : SymType) (lines : Int) :
    let d' := setPending d active cx cy angle type lines
    d'.current = d.current ∧ d'.cells = d.cells ∧ d'.num = d.num ∧ d'.cap = d.cap ∧
      d'.active = active := ⟨rfl, rfl, rfl, rfl, rfl⟩

end

section
variable {K : Type} [Field K] [LinearOrder K] [IsStrictOrderedRing K] [FloorRing K]

/-- **C24, C25, C26 together.** After any history of settings and `begin_atomic` calls, a dab is
repeated at the images of the setting in force if the last setting is active, and not at all
otherwise. -/
theorem dab_repeated_for_setting_in_force {trig : Trig K} (l : trig.Laws) (garbage : Int → Transform K)
    (calls : List (Call K)) (hs : ∀ c ∈ calls, c.Small) (hd : ∀ c ∈ calls, c.Delivers)
    (numB : Int) (x y angle : K) :
    ∃ d ps used, history trig generous garbage calls = .ok d ∧
      passes d numB x y angle = .ok (ps, used) ∧
      let w := calls.foldl Wish.step Wish.fresh
      List.Forall₂ (IsCopy trig x y angle) ps (if w.active then copies trig w.inForce else []) := by
  obtain ⟨d, h, ha⟩ := setting_in_force trig garbage calls hs hd
  cases hact : d.active with
  | true =>
    obtain ⟨ps, used, h1, h2⟩ := passes_are_copies l ha.inv hact (by have := ha.num; omega) numB x y angle
    refine ⟨d, ps, used, h, h1, ?_⟩
    simp only [← ha.active, hact, ← ha.inForce, if_true]
    exact h2
  | false =>
    refine ⟨d, [], 1, h, by simp [passes, hact], ?_⟩
    simp only [← ha.active, hact]
    exact .nil

/-! ## C24: bounding boxes -/

theorem roundf_le {v : K} {n : Int} (h : v ≤ n) : roundf v ≤ n := by
  unfold roundf
  have : ⌊v + 1 / 2⌋ < n + 1 := by
    rw [Int.floor_lt]
    push_cast
    linarith [show (1 : K) / 2 < 1 by norm_num]
  omega

theorem roundf_nonneg {v : K} (h : 0 ≤ v) : 0 ≤ roundf v := by
  unfold roundf
  apply Int.floor_nonneg.mpr
  have : (0 : K) < 1 / 2 := by norm_num
  linarith

theorem div_le_of_one_le {k p : K} (hk : 0 ≤ k) (hp : 1 ≤ p) : k / p ≤ k ∧ 0 ≤ k / p := by
  have : 0 < p := lt_of_lt_of_le one_pos hp
  constructor
  · rw [div_le_iff₀ this]; nlinarith
  · exact div_nonneg hk this.le

theorem rotational_bbox {numB k lines : Int} {per : K} (hB : 1 ≤ numB) (h0 : 0 ≤ k) (h1 : k < lines)
    (hp : 1 ≤ per) :
    0 ≤ min (roundf ((k : K) / per)) (numB - 1) ∧
      min (roundf ((k : K) / per)) (numB - 1) < min numB lines := by
  obtain ⟨a, b⟩ := div_le_of_one_le (k := (k : K)) (by exact_mod_cast h0) hp
  have := roundf_le a
  have := roundf_nonneg b
  omega

/-- The box of a reflected dab of a snowflake. -/
theorem snowflake_bbox {numB k lines : Int} (hB : 1 ≤ numB) (h0 : 0 ≤ k) (h1 : k < lines)
    (hok : lines < numB ∨ numB % 2 = 1) :
    0 ≤ min (numB / 2) lines + min (roundf ((k : K) / max 1 ((lines : K) * 2 / (numB : K)))) (numB - 1) ∧
    min (numB / 2) lines + min (roundf ((k : K) / max 1 ((lines : K) * 2 / (numB : K)))) (numB - 1) <
      min numB (lines * 2) := by
  have hBK : (0 : K) < (numB : K) := by exact_mod_cast (by omega : 0 < numB)
  have hLK : (0 : K) < (lines : K) := by exact_mod_cast (by omega : 0 < lines)
  have hkK : (0 : K) ≤ (k : K) := by exact_mod_cast h0
  obtain ⟨a, b⟩ := div_le_of_one_le (p := max 1 ((lines : K) * 2 / (numB : K))) hkK (le_max_left _ _)
  have hr0 := roundf_nonneg b
  have hrk := roundf_le a
  by_cases h2 : lines * 2 ≤ numB
  · omega
  · have hper : max 1 ((lines : K) * 2 / (numB : K)) = (lines : K) * 2 / (numB : K) := by
      apply max_eq_right
      rw [le_div_iff₀ hBK]
      have : (numB : K) ≤ (lines : K) * 2 := by exact_mod_cast (by omega : numB ≤ lines * 2)
      linarith
    rw [hper] at hr0 hrk ⊢
    have hval : (k : K) / ((lines : K) * 2 / (numB : K)) = (k : K) * (numB : K) / ((lines : K) * 2) := by
      field_simp
    rw [hval] at hr0 hrk ⊢
    -- the rounded quotient is at most (numB - 1) / 2
    have hfl : roundf ((k : K) * (numB : K) / ((lines : K) * 2)) ≤ (numB - 1) / 2 := by
      unfold roundf
      have hlt : ⌊(k : K) * (numB : K) / ((lines : K) * 2) + 1 / 2⌋ < (numB - 1) / 2 + 1 := by
        rw [Int.floor_lt]
        have hk1 : (k : K) ≤ (lines : K) - 1 := by exact_mod_cast (by omega : k ≤ lines - 1)
        have e1 : (k : K) * (numB : K) / ((lines : K) * 2) ≤
            ((lines : K) - 1) * (numB : K) / ((lines : K) * 2) := by
          apply div_le_div_of_nonneg_right _ (by positivity)
          exact mul_le_mul_of_nonneg_right hk1 hBK.le
        have e2 : ((lines : K) - 1) * (numB : K) / ((lines : K) * 2) =
            (numB : K) / 2 - (numB : K) / ((lines : K) * 2) := by
          field_simp
        have e3 : (0 : K) < (numB : K) / ((lines : K) * 2) := by positivity
        rcases hok with hok | hok
        · have e4 : (1 : K) / 2 < (numB : K) / ((lines : K) * 2) := by
            rw [div_lt_div_iff₀ (by norm_num) (by positivity)]
            have : (lines : K) < (numB : K) := by exact_mod_cast hok
            linarith
          have e5 : (numB : K) / 2 ≤ (((numB - 1) / 2 + 1 : Int) : K) := by
            rw [div_le_iff₀ (by norm_num)]
            exact_mod_cast (by omega : numB ≤ ((numB - 1) / 2 + 1) * 2)
          linarith
        · have e5 : (numB : K) / 2 + 1 / 2 = (((numB - 1) / 2 + 1 : Int) : K) := by
            have : ((numB : Int) : K) + 1 = ((((numB - 1) / 2 + 1) * 2 : Int) : K) := by
              exact_mod_cast (by omega : numB + 1 = ((numB - 1) / 2 + 1) * 2)
            push_cast at this ⊢
            linarith
          linarith
      omega
    omega

/-- **C24 (bounding boxes), partial.** If the boxes could be allocated — or, failing that, for every
setting except a snowflake with at least as many lines as an even number of boxes — each dab's
bounding box exists and is among those reported afterwards. -/
theorem bbox_in_bounds_partial {d : Data K} {numB : Int} (hB : 4 ≤ numB) (hl : 2 ≤ d.current.lines)
    (hok : d.current.type = .snowflake → d.current.lines < numB ∨ numB % 2 = 1)
    {x y angle : K} {ps : List (Pass K)} {used : Int}
    (h : passes d numB x y angle = .ok (ps, used)) :
    ∀ p ∈ ps, 0 ≤ p.bbox ∧ p.bbox < min numB used := by
  have mapM_mem {f : Int → Except Fault (Pass K)} {l : List Int} {qs : List (Pass K)}
      (hm : l.mapM f = .ok qs) : ∀ q ∈ qs, ∃ k ∈ l, f k = .ok q := by
    induction l generalizing qs with
    | nil => cases hm; intro q hq; cases hq
    | cons a l ih =>
      rw [List.mapM_cons] at hm
      cases h1 : f a with
      | error e => rw [h1] at hm; cases hm
      | ok b =>
        cases h2 : l.mapM f with
        | error e => rw [h1, h2] at hm; cases hm
        | ok bs =>
          rw [h1, h2] at hm; cases hm
          intro q hq
          rcases List.mem_cons.mp hq with e | e
          · subst e; exact ⟨a, List.mem_cons_self, h1⟩
          · obtain ⟨k, hk, hf⟩ := ih h2 q e
            exact ⟨k, List.mem_cons_of_mem _ hk, hf⟩
  have pass_bbox {i : Int} {a : K} {bb : Int} {p : Pass K} (hp : pass d i x y a bb = .ok p) :
      p.bbox = bb := by
    unfold pass at hp
    cases hm : load d i with
    | error e => rw [hm] at hp; cases hp
    | ok m => rw [hm] at hp; cases hp; rfl
  have rot {qs : List (Pass K)} (hq : rotationalPasses d numB x y angle = .ok qs) :
      ∀ q ∈ qs, 0 ≤ q.bbox ∧ q.bbox < min numB d.current.lines := by
    intro q hq'
    obtain ⟨k, hk, hf⟩ := mapM_mem hq q hq'
    rw [mem_cRange] at hk
    rw [pass_bbox hf]
    exact rotational_bbox (by omega) (by omega) (by omega) (le_max_left _ _)
  unfold passes at h
  by_cases hc : d.active = true ∧ d.num ≠ 0
  · rw [if_pos hc] at h
    cases ht : d.current.type with
    | vertical =>
      simp only [ht] at h
      cases h1 : pass d 0 x y (-2 * (90 + d.current.angle) - angle) 1 with
      | error e => rw [h1] at h; cases h
      | ok p =>
        rw [h1] at h; cases h
        intro q hq
        rw [List.mem_singleton.mp hq, pass_bbox h1]; omega
    | horizontal =>
      simp only [ht] at h
      cases h1 : pass d 0 x y (-2 * d.current.angle - angle) 1 with
      | error e => rw [h1] at h; cases h
      | ok p =>
        rw [h1] at h; cases h
        intro q hq
        rw [List.mem_singleton.mp hq, pass_bbox h1]; omega
    | verthorz =>
      simp only [ht] at h
      cases h1 : pass d 0 x y (-2 * d.current.angle - angle) 1 with
      | error e => rw [h1] at h; cases h
      | ok p1 =>
        cases h2 : pass d 1 x y angle 2 with
        | error e => rw [h1, h2] at h; cases h
        | ok p2 =>
          cases h3 : pass d 2 x y (-2 * d.current.angle - angle) 3 with
          | error e => rw [h1, h2, h3] at h; cases h
          | ok p3 =>
            rw [h1, h2, h3] at h; cases h
            intro q hq
            simp only [List.mem_cons, List.not_mem_nil, or_false] at hq
            rcases hq with e | e | e <;> subst e
            · rw [pass_bbox h1]; omega
            · rw [pass_bbox h2]; omega
            · rw [pass_bbox h3]; omega
    | rotational =>
      simp only [ht] at h
      cases h1 : rotationalPasses d numB x y angle with
      | error e => rw [h1] at h; cases h
      | ok qs =>
        rw [h1] at h; cases h
        intro q hq
        have := rot h1 q hq
        omega
    | snowflake =>
      simp only [ht] at h
      cases h1 : snowflakePasses d numB x y angle with
      | error e => rw [h1] at h; cases h
      | ok rs =>
        cases h2 : rotationalPasses d numB x y angle with
        | error e => rw [h1, h2] at h; cases h
        | ok qs =>
          rw [h1, h2] at h; cases h
          intro q hq
          rcases List.mem_append.mp hq with hq | hq
          · obtain ⟨k, hk, hf⟩ := mapM_mem h1 q hq
            rw [mem_cRange] at hk
            rw [pass_bbox hf]
            have := snowflake_bbox (K := K) (numB := numB) (k := k) (lines := d.current.lines)
              (by omega) (by omega) (by omega) (hok ht)
            generalize min (numB / 2) d.current.lines + min (roundf ((k : K) /
              max 1 ((d.current.lines : K) * 2 / (numB : K)))) (numB - 1) = z at this ⊢
            omega
          · have := rot h2 q hq
            omega
    | other n =>
      simp only [ht] at h
      cases h
      intro q hq; cases hq
  · rw [if_neg hc] at h
    cases h
    intro q hq; cases hq

/-- **C24 is false for the bounding boxes when their allocation fails**: with the 32 default boxes, a
snowflake of 100 lines gives its last reflected dab box number 32, one past the end. -/
theorem snowflake_bbox_out_of_bounds :
    let numB : Int := 32
    let lines : Int := 100
    min (numB / 2) lines + min (roundf ((99 : Rat) / max 1 ((lines : Rat) * 2 / (numB : Rat)))) (numB - 1)
      = numB := by
  decide +kernel

/-! ## C25: the images form a group -/

/-- The points at which a dab at `p` appears. -/
def images (trig : Trig K) (s : State K) (p : K × K) : Set (K × K) :=
  {q | q = p ∨ ∃ f ∈ copies trig s, q = f p}

/-- All rotations by multiples of `2π/n`. -/
def Cyc (trig : Trig K) (c : K × K) (n : Int) (p : K × K) : Set (K × K) :=
  {q | ∃ k : Int, q = turn trig c (0 + -((k : K) * (2 * trig.pi / (n : K)))) p}

/-- … and all reflections. -/
def Dih (trig : Trig K) (c : K × K) (n : Int) (f : K) (p : K × K) : Set (K × K) :=
  {q | ∃ k : Int, q = turn trig c (0 + -((k : K) * (2 * trig.pi / (n : K)))) p ∨
    q = flip trig c (f + -((k : K) * (2 * trig.pi / (n : K)))) p}

theorem cyc_closed {trig : Trig K} (l : trig.Laws) (c : K × K) (n : Int) (p q : K × K)
    (h : q ∈ Cyc trig c n p) : Cyc trig c n q = Cyc trig c n p := by
  obtain ⟨k, rfl⟩ := h
  ext r
  constructor
  · rintro ⟨j, rfl⟩
    refine ⟨j + k, ?_⟩
    rw [turn_turn l]; congr 1; push_cast; ring
  · rintro ⟨j, rfl⟩
    refine ⟨j - k, ?_⟩
    rw [turn_turn l]; congr 1; push_cast; ring

theorem dih_closed {trig : Trig K} (l : trig.Laws) (c : K × K) (n : Int) (f : K) (p q : K × K)
    (h : q ∈ Dih trig c n f p) : Dih trig c n f q = Dih trig c n f p := by
  obtain ⟨k, rfl | rfl⟩ := h
  · ext r
    constructor
    · rintro ⟨j, rfl | rfl⟩
      · refine ⟨j + k, .inl ?_⟩
        rw [turn_turn l]; congr 1; push_cast; ring
      · refine ⟨j - k, .inr ?_⟩
        rw [flip_turn l]; congr 1; push_cast; ring
    · rintro ⟨j, rfl | rfl⟩
      · refine ⟨j - k, .inl ?_⟩
        rw [turn_turn l]; congr 1; push_cast; ring
      · refine ⟨j + k, .inr ?_⟩
        rw [flip_turn l]; congr 1; push_cast; ring
  · ext r
    constructor
    · rintro ⟨j, rfl | rfl⟩
      · refine ⟨j + k, .inr ?_⟩
        rw [turn_flip l]; congr 1; push_cast; ring
      · refine ⟨j - k, .inl ?_⟩
        rw [flip_flip l]; congr 1; push_cast; ring
    · rintro ⟨j, rfl | rfl⟩
      · refine ⟨j + k, .inr ?_⟩
        rw [flip_flip l]; congr 1; push_cast; ring
      · refine ⟨j - k, .inl ?_⟩
        rw [turn_flip l]; congr 1; push_cast; ring

theorem rotations_cyc {trig : Trig K} (l : trig.Laws) (c : K × K) {n : Int} (hn : 1 ≤ n) (p q : K × K) :
    q ∈ Cyc trig c n p ↔ q = p ∨
      ∃ f ∈ (cRange 1 n).map (fun (k : Int) => turn trig c (-((k : K) * (2 * trig.pi / (n : K))))), q = f p := by
  constructor
  · rintro ⟨k, rfl⟩
    rw [turn_mod l c (by omega) k 0, zero_add]
    by_cases h0 : k % n = 0
    · left; rw [h0]; simp [turn_zero l]
    · right
      refine ⟨_, List.mem_map_of_mem (a := k % n) ?_, rfl⟩
      rw [mem_cRange]
      have := Int.emod_nonneg k (by omega : n ≠ 0)
      have := Int.emod_lt_of_pos k (by omega : 0 < n)
      omega
  · rintro (rfl | ⟨f, hf, rfl⟩)
    · exact ⟨0, by simp [turn_zero l]⟩
    · obtain ⟨k, _, rfl⟩ := List.mem_map.mp hf
      exact ⟨k, by rw [zero_add]⟩

theorem dih_iff {trig : Trig K} (l : trig.Laws) (c : K × K) {n : Int} (hn : 1 ≤ n) (f : K) (p q : K × K) :
    q ∈ Dih trig c n f p ↔ q ∈ Cyc trig c n p ∨
      ∃ k : Int, 0 ≤ k ∧ k < n ∧ q = flip trig c (f + -((k : K) * (2 * trig.pi / (n : K)))) p := by
  constructor
  · rintro ⟨k, h | h⟩
    · exact .inl ⟨k, h⟩
    · right
      refine ⟨k % n, Int.emod_nonneg k (by omega), Int.emod_lt_of_pos k (by omega), ?_⟩
      rw [← flip_mod l c (by omega) k f]
      exact h
  · rintro (⟨k, h⟩ | ⟨k, _, _, h⟩)
    · exact ⟨k, .inl h⟩
    · exact ⟨k, .inr h⟩

theorem images_eq {trig : Trig K} (l : trig.Laws) (s : State K) (hs : 2 ≤ s.lines) (p : K × K) :
    images trig s p = match s.type with
      | .vertical => Dih trig (s.cx, s.cy) 1 (-(radians trig s.angle + trig.pi / 2) +
          -(radians trig s.angle + trig.pi / 2)) p
      | .horizontal => Dih trig (s.cx, s.cy) 1 (-radians trig s.angle + -radians trig s.angle) p
      | .verthorz => Dih trig (s.cx, s.cy) 2 (-radians trig s.angle + -radians trig s.angle) p
      | .rotational => Cyc trig (s.cx, s.cy) s.lines p
      | .snowflake => Dih trig (s.cx, s.cy) s.lines (-radians trig s.angle + -radians trig s.angle) p
      | .other _ => {p} := by
  have one (f : K) (q : K × K) : q ∈ Dih trig (s.cx, s.cy) 1 f p ↔ q = p ∨ q = flip trig (s.cx, s.cy) f p := by
    rw [dih_iff l _ (by omega), rotations_cyc l _ (by omega)]
    constructor
    · rintro ((h | ⟨g, hg, _⟩) | ⟨k, h0, h1, h⟩)
      · exact .inl h
      · simp [cRange] at hg
      · right
        have : k = 0 := by omega
        subst this
        simpa using h
    · rintro (h | h)
      · exact .inl (.inl h)
      · exact .inr ⟨0, by omega, by omega, by simpa using h⟩
  ext q
  unfold images copies
  cases s.type with
  | vertical => simp only [Set.mem_setOf_eq, List.mem_singleton, exists_eq_left, one, mirror_eq_flip l]
  | horizontal => simp only [Set.mem_setOf_eq, List.mem_singleton, exists_eq_left, one, mirror_eq_flip l]
  | verthorz =>
    have hpi : trig.cos trig.pi = -1 ∧ trig.sin trig.pi = 0 := by
      have e : trig.pi = trig.pi / 2 + trig.pi / 2 := by ring
      rw [e, l.cos_add, l.sin_add, l.cos_half_pi, l.sin_half_pi]
      constructor <;> ring
    have half : turn trig (s.cx, s.cy) (-trig.pi) p = Spec.halfTurn (s.cx, s.cy) p := by
      unfold turn Spec.rotateBy Spec.halfTurn
      rw [l.cos_neg, l.sin_neg, hpi.1, hpi.2]
      ext <;> simp only <;> ring
    simp only
    rw [dih_iff l _ (by omega), rotations_cyc l _ (by omega)]
    simp only [Set.mem_setOf_eq, List.mem_cons, List.not_mem_nil, or_false, exists_eq_or_imp,
      exists_eq_left, mirror_eq_flip l]
    have e1 : (cRange 1 2).map (fun (k : Int) => turn trig (s.cx, s.cy) (-((k : K) * (2 * trig.pi / ((2 : Int) : K)))))
        = [turn trig (s.cx, s.cy) (-trig.pi)] := by
      have : cRange 1 2 = [1] := by decide
      rw [this, List.map_cons, List.map_nil]
      congr 3
      push_cast; ring
    rw [e1]
    simp only [List.mem_singleton, exists_eq_left, half]
    have e2 : ∀ a : K, flip trig (s.cx, s.cy) (-(a + trig.pi / 2) + -(a + trig.pi / 2)) =
        flip trig (s.cx, s.cy) (-a + -a + -(((1 : Int) : K) * (2 * trig.pi / ((2 : Int) : K)))) := by
      intro a; congr 1; push_cast; ring
    have e0 : ∀ a : K, flip trig (s.cx, s.cy) (-a + -a) =
        flip trig (s.cx, s.cy) (-a + -a + -(((0 : Int) : K) * (2 * trig.pi / ((2 : Int) : K)))) := by
      intro a; congr 1; push_cast; ring
    rw [e2]
    constructor
    · rintro (h | h | h | h)
      · exact .inl (.inl h)
      · rw [e0] at h
        exact .inr ⟨0, by omega, by omega, h⟩
      · exact .inl (.inr h)
      · exact .inr ⟨1, by omega, by omega, h⟩
    · rintro ((h | h) | ⟨k, h0, h1, h⟩)
      · exact .inl h
      · exact .inr (.inr (.inl h))
      · have : k = 0 ∨ k = 1 := by omega
        rcases this with e | e
        · subst e
          rw [← e0] at h
          exact .inr (.inl h)
        · subst e
          exact .inr (.inr (.inr h))
  | rotational =>
    simp only
    rw [rotations_cyc l _ (by omega)]
    rfl
  | snowflake =>
    simp only
    rw [dih_iff l _ (by omega), rotations_cyc l _ (by omega)]
    have e : ∀ k : Int, mirror trig (s.cx, s.cy) (-(radians trig s.angle + (k : K) * (2 * trig.pi / (s.lines : K) / 2))) =
        flip trig (s.cx, s.cy) (-radians trig s.angle + -radians trig s.angle +
          -((k : K) * (2 * trig.pi / (s.lines : K)))) := by
      intro k
      rw [mirror_eq_flip l]; congr 1; ring
    constructor
    · rintro (h | ⟨f, hf, h⟩)
      · exact .inl (.inl h)
      · rcases List.mem_append.mp hf with hf | hf
        · obtain ⟨k, hk, rfl⟩ := List.mem_map.mp hf
          rw [mem_cRange] at hk
          rw [e] at h
          exact .inr ⟨k, by omega, by omega, h⟩
        · exact .inl (.inr ⟨f, hf, h⟩)
    · rintro ((h | ⟨f, hf, h⟩) | ⟨k, h0, h1, h⟩)
      · exact .inl h
      · exact .inr ⟨f, List.mem_append.mpr (.inr hf), h⟩
      · refine .inr ⟨_, List.mem_append.mpr (.inl (List.mem_map_of_mem (a := k) ?_)), ?_⟩
        · rw [mem_cRange]; omega
        · rw [e]; exact h
  | other n => simp [Set.mem_setOf_eq]

/-- **C25 (group).** Dabbing at any of the places where a dab appears gives the same set of places:
it does not matter which of the symmetric copies is drawn by hand. -/
theorem images_of_image {trig : Trig K} (l : trig.Laws) (s : State K) (hs : 2 ≤ s.lines) (p q : K × K)
    (h : q ∈ images trig s p) : images trig s q = images trig s p := by
  rw [images_eq l s hs] at h ⊢
  rw [images_eq l s hs]
  revert h
  cases s.type with
  | rotational => exact cyc_closed l _ _ _ _
  | other n => intro h; simp only at h ⊢; rw [Set.mem_singleton_iff.mp h]
  | _ => exact dih_closed l _ _ _ _ _

/-- **C25 (isometry).** Copies have the size and shape of the original. -/
theorem copies_isometric {trig : Trig K} (l : trig.Laws) (s : State K) (f : K × K → K × K)
    (hf : f ∈ copies trig s) (p q : K × K) : Spec.dist2 (f p) (f q) = Spec.dist2 p q := by
  have hm (a : K) : Spec.dist2 (mirror trig (s.cx, s.cy) a p) (mirror trig (s.cx, s.cy) a q) =
      Spec.dist2 p q := by
    rw [mirror_eq_flip l]; exact flip_dist l _ _ _ _
  unfold copies at hf
  cases ht : s.type with
  | vertical =>
    simp only [ht, List.mem_singleton] at hf; subst hf; exact hm _
  | horizontal =>
    simp only [ht, List.mem_singleton] at hf; subst hf; exact hm _
  | verthorz =>
    simp only [ht, List.mem_cons, List.not_mem_nil, or_false] at hf
    rcases hf with rfl | rfl | rfl
    · exact hm _
    · unfold Spec.dist2 Spec.halfTurn; ring
    · exact hm _
  | rotational =>
    simp only [ht, List.mem_map] at hf
    obtain ⟨k, _, rfl⟩ := hf
    exact turn_dist l _ _ _ _
  | snowflake =>
    simp only [ht, List.mem_append, List.mem_map] at hf
    rcases hf with ⟨k, _, rfl⟩ | ⟨k, _, rfl⟩
    · exact hm _
    · exact turn_dist l _ _ _ _
  | other n => simp only [ht] at hf; cases hf

end

/-! ## Non-vacuity: the real functions -/

/-- The real cosine, sine and π. -/
noncomputable def realTrig : Trig ℝ := ⟨Real.cos, Real.sin, Real.pi⟩

theorem realTrig_laws : realTrig.Laws where
  cos_add := Real.cos_add
  sin_add := Real.sin_add
  cos_neg := Real.cos_neg
  sin_neg := Real.sin_neg
  circle a := by
    have := Real.sin_sq_add_cos_sq a
    show Real.sin a * Real.sin a + Real.cos a * Real.cos a = 1
    nlinarith
  cos_half_pi := Real.cos_pi_div_two
  sin_half_pi := Real.sin_pi_div_two

/-- With the real functions: a five-fold rotation set, not yet in force, then in force. -/
example (garbage : Int → Transform ℝ) :
    ∃ d ps used, history realTrig generous garbage
        [.set true 10 20 0 .rotational 5, .begin generous, .set true 0 0 0 .vertical 2] = .ok d ∧
      passes d 32 1 2 0 = .ok (ps, used) ∧
      List.Forall₂ (IsCopy realTrig 1 2 0) ps
        (copies realTrig ⟨.rotational, 10, 20, 0, 5⟩) := by
  have := dab_repeated_for_setting_in_force realTrig_laws garbage
    [.set true 10 20 0 .rotational 5, .begin generous, .set true 0 0 0 .vertical 2]
    (by simp [Call.Small]) (by simp [Call.Delivers]) 32 1 2 0
  simpa [Wish.step, Wish.fresh] using this

example : ((copies realTrig ⟨.rotational, 10, 20, 0, 5⟩).length : Int) = 4 :=
  copies_length realTrig _ (by norm_num)

/-! ## Where the claims fail -/

section
variable {K : Type} [Field K] [LinearOrder K]

/-- **C26 is false for the on/off switch**: it acts at once, not at the next `begin_atomic`. -/
theorem active_is_immediate (d : Data K) (cx cy angle : K) (type : SymType) (lines : Int)
    [FloorRing K] (numB : Int) (x y a : K) :
    passes (setPending d false cx cy angle type lines) numB x y a = .ok ([], 1) := by
  simp [passes, setPending]

/-- **C26 is false after a failed allocation**: asking for too many lines once, and then going back
to the setting that is in force, leaves symmetry off although it is active. -/
theorem failed_allocation_disables (trig : Trig K) (garbage : Int → Transform K) [FloorRing K]
    (x y a : K) :
    ∃ d, history trig generous garbage
        [.set true 0 0 0 .rotational 100, .begin (fun _ => false),
         .set true 0 0 0 .vertical 2, .begin generous] = .ok d ∧
      d.active = true ∧ d.current = d.pending ∧ d.current.type = .vertical ∧
      passes d 32 x y a = .ok ([], 1) := by
  obtain ⟨d, h, ha, hnum⟩ := default_agrees trig garbage
  have hw : d.current = ⟨.vertical, 0, 0, 0, 2⟩ := ha.inForce
  unfold history
  rw [h]
  show ∃ d', (update trig (fun _ => false) (setPending d true 0 0 0 .rotational 100) >>= fun d2 =>
    update trig generous (setPending d2 true 0 0 0 .vertical 2) >>= fun d => .ok d) = .ok d' ∧ _
  have a1 := agrees_set ha true 0 0 0 .rotational 100 (by omega)
  have hf : f32 100 = 100 := f32_id (by decide) (by decide)
  have hc : count (setPending d true 0 0 0 .rotational 100).pending = 99 := by
    simp [count, setPending, hf]
  rcases update_cases trig (fun _ => false) a1.inv with ⟨_, q⟩ | ⟨q, _⟩ | ⟨n, c, f, pc, q, q2, _⟩
  · have := (statesEqual_iff _ _).mp (q rfl)
    have e : d.current.type = .rotational := congrArg State.type this
    rw [hw] at e; cases e
  · rw [q]
    generalize hd2 : ({ setPending d true 0 0 0 .rotational 100 with num := 0 } : Data K) = d2
    have i2 : Inv trig d2 := by
      obtain ⟨d3, q3, q4, _⟩ := update_inv trig (fun _ => false) a1.inv
      rw [q] at q3; cases q3
      rw [← hd2]; exact q4
    have i3 := setPending_inv trig i2 true 0 0 0 .vertical (lines := 2) (by omega)
    have hcur : d2.current = ⟨.vertical, 0, 0, 0, 2⟩ := by rw [← hd2]; exact hw
    have hf2 : f32 2 = 2 := f32_id (by decide) (by decide)
    have hpend : (setPending d2 true 0 0 0 .vertical 2).pending = ⟨.vertical, 0, 0, 0, 2⟩ := by
      simp [setPending, hf2]
    have hcur3 : (setPending d2 true 0 0 0 .vertical 2).current = ⟨.vertical, 0, 0, 0, 2⟩ := hcur
    have heq : statesEqual (setPending d2 true 0 0 0 .vertical 2).current
        (setPending d2 true 0 0 0 .vertical 2).pending = true := by
      rw [statesEqual_iff, hpend, hcur3]
    show ∃ d', (update trig generous (setPending d2 true 0 0 0 .vertical 2) >>= fun d => .ok d) = .ok d' ∧ _
    rcases update_cases trig generous i3 with ⟨r, _⟩ | ⟨_, _, r, _⟩ | ⟨n, c, f, pc, _, _, r, _⟩
    · rw [r]
      refine ⟨_, rfl, rfl, hcur3.trans hpend.symm, by rw [hcur3], ?_⟩
      have hz : (setPending d2 true 0 0 0 .vertical 2).num = 0 := by rw [← hd2]; rfl
      simp [passes, hz]
    · rw [heq] at r; cases r
    · rw [heq] at r; cases r
  · rw [hc] at q2
    have : (setPending d true 0 0 0 .rotational 100).num = 16 := hnum
    exfalso
    rcases q2 with ⟨_, _, q3⟩ | ⟨_, _, _, q3⟩
    · omega
    · cases q3

/-- **C24 is false for absurd line counts**: the number of bytes for 119304656 matrices does not fit
in an `int` and wraps to 320, so `begin_atomic` allocates room for 8 matrices and writes beyond it.
(2^20 lines, the bound in the theorems above, is more than a hundred times less.) -/
theorem huge_line_count_writes_out_of_bounds (trig : Trig K) (garbage : Int → Transform K) :
    history trig generous garbage [.set true 0 0 0 .rotational 119304656, .begin generous] =
      .error .outOfBounds := by
  obtain ⟨d, h, ha, hnum⟩ := default_agrees trig garbage
  have hw : d.current = ⟨.vertical, 0, 0, 0, 2⟩ := ha.inForce
  unfold history
  rw [h]
  show (update trig generous (setPending d true 0 0 0 .rotational 119304656) >>= fun d => .ok d) = _
  have hf : f32 119304656 = 119304656 := by decide +kernel
  have hp : setPending d true 0 0 0 .rotational 119304656 =
      { d with active := true, pending := ⟨.rotational, 0, 0, 0, 119304656⟩, pendingChanges := true } := by
    simp [setPending, hf]
  have hr : numRequired (⟨.rotational, 0, 0, 0, 119304656⟩ : State K) = 119304656 := by
    show f32 (119304656 - 1) = 119304656
    decide +kernel
  have hb : toI32 (119304656 * 36) = 320 := by decide +kernel
  rw [hp]
  unfold update
  have hne : statesEqual d.current (⟨.rotational, 0, 0, 0, 119304656⟩ : State K) = false := by
    simp [statesEqual, hw]
  simp only [hne, hr, hnum, allocate, hb]
  rw [if_neg (by decide), if_pos (show (16 : Int) < 119304656 by decide),
    if_pos (show (0 : Int) ≤ 320 ∧ generous 320 = true from ⟨by decide, rfl⟩)]
  have := foldl_store_oob (fun i => rotateCw trig (translate unit (-(0 : K)) (-0))
      (2 * trig.pi / ((119304656 : Int) : K) * (i : K))) (-1) _ 1 119304656
    ({ d with active := true, pending := ⟨.rotational, 0, 0, 0, 119304656⟩, pendingChanges := true
              num := 119304656, cap := 320 / 36, current := ⟨.rotational, 0, 0, 0, 119304656⟩ } : Data K)
    rfl (by decide) (show (1 : Int) + -1 ≤ 320 / 36 by decide)
    (show (320 : Int) / 36 < 119304656 + -1 by decide)
  rw [if_neg (show ¬ (true = false) by decide)]
  unfold fill
  exact congrArg (· >>= _) (congrArg (· >>= _) this)

end
end Verif.Symm
