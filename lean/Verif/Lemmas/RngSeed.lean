import Verif.Lemmas.Rng
import Mathlib.Tactic.IntervalCases
import Mathlib.Data.List.GetD

/-! Helper lemmas for the random generator: seeding and drawing. -/

namespace Verif.Rng

theorem bootstrap_spec (k : Nat) : ∀ ss : Int, 0 ≤ ss → ss < unit → ss % 2 = 0 →
    (bootstrap k ss).length = k ∧ ∀ v ∈ bootstrap k ss, 0 ≤ v ∧ v < unit ∧ v % 2 = 0 := by
  induction k with
  | zero => intro ss _ _ _; exact ⟨rfl, by simp [bootstrap]⟩
  | succ k ih =>
    intro ss h0 h1 h2
    unfold bootstrap
    have hd : 0 ≤ (let d := ss + ss; if unit ≤ d then d - (unit - 2) else d) ∧
        (let d := ss + ss; if unit ≤ d then d - (unit - 2) else d) < unit ∧
        (let d := ss + ss; if unit ≤ d then d - (unit - 2) else d) % 2 = 0 := by
      dsimp only
      unfold unit at *
      split_ifs <;> omega
    obtain ⟨e, h⟩ := ih _ hd.1 hd.2.1 hd.2.2
    refine ⟨by rw [List.length_cons, e], ?_⟩
    intro v hv
    rcases List.mem_cons.mp hv with rfl | hv
    · exact ⟨h0, h1, h2⟩
    · exact h v hv

theorem low30_lt (seed : Int) : low30 seed < 2 ^ 30 := by unfold low30; omega

/-- The first ten numbers before the seeding loop, for the low 30 bits `s` of the seed. -/
theorem seedBuffer_spec (s : Nat) (hs : s < 2 ^ 30) :
    ∃ a : List Int, a.length = 10 ∧ (∀ v ∈ a, 0 ≤ v ∧ v < unit) ∧ (∃ v ∈ a, v % 2 = 1) ∧
      ∀ seed junk, low30 seed = s → seedBuffer seed junk = .ok (a ++ junk) := by
  obtain ⟨hl, h⟩ := bootstrap_spec 10 (2 * ((s : Int) + 2)) (by omega) (by unfold unit; omega) (by omega)
  generalize hb : bootstrap 10 (2 * ((s : Int) + 2)) = l at hl h
  obtain ⟨b0, b1, l', rfl⟩ : ∃ b0 b1 l', l = b0 :: b1 :: l' := by
    match l, hl with
    | b0 :: b1 :: l', _ => exact ⟨b0, b1, l', rfl⟩
  refine ⟨b0 :: (b1 + 1) :: l', by simpa using hl, ?_, ⟨b1 + 1, by simp, ?_⟩, ?_⟩
  · intro v hv
    rcases List.mem_cons.mp hv with rfl | hv
    · have := h v (by simp); exact ⟨this.1, this.2.1⟩
    · rcases List.mem_cons.mp hv with rfl | hv
      · obtain ⟨h1, h2, h3⟩ := h b1 (by simp)
        unfold unit at *
        omega
      · have := h v (by simp [hv]); exact ⟨this.1, this.2.1⟩
  · obtain ⟨h1, h2, h3⟩ := h b1 (by simp)
    omega
  · intro seed junk hseed
    unfold seedBuffer
    rw [hseed, hb]
    rfl

/-- `u[i]`, where known. -/
def At (u : List Int) (v : Int) (o : Option Nat) : Prop := ∀ i, o = some i → u[i]? = some v

theorem install_spec (u ranU : List Int) (hu : u.length = 19) (hr : ranU.length = 10) :
    ∃ r, install u ranU = .ok r ∧ List.Forall₂ (At u) r
      [some 7, some 8, some 9, some 0, some 1, some 2, some 3, some 4, some 5, some 6] := by
  have h1 : List.Forall₂ (At u) u ((List.range 19).map some) := by
    rw [List.forall₂_iff_get]
    refine ⟨by simp [hu], ?_⟩
    intro i hi hi' k hk
    simp at hk
    subst hk
    simp
  have h2 : List.Forall₂ (At u) ranU (List.replicate 10 none) :=
    forall₂_junk _ 10 hr none fun a _ i hi => by cases hi
  have h3 := install_rel h1 h2
  rw [show install ((List.range 19).map some) (List.replicate 10 none) =
    .ok [some 7, some 8, some 9, some 0, some 1, some 2, some 3, some 4, some 5, some 6] by decide +kernel] at h3
  exact h3.ok_right

/-- The stream. -/
def stream (u : Nat → Int) (n : Nat) : Int :=
  if h : n < 10 then u n else modSum (stream u (n - 10)) (stream u (n - 7))
termination_by n
decreasing_by all_goals omega

theorem stream_lt (u : Nat → Int) {n : Nat} (h : n < 10) : stream u n = u n := by
  rw [stream, dif_pos h]

theorem stream_succ (u : Nat → Int) (n : Nat) : stream u (n + 10) = modSum (stream u n) (stream u (n + 3)) := by
  rw [stream, dif_neg (by omega)]
  simp

theorem stream_range (u : Nat → Int) (h : ∀ i < 10, 0 ≤ u i ∧ u i < unit) (n : Nat) :
    0 ≤ stream u n ∧ stream u n < unit := by
  induction n using Nat.strong_induction_on with
  | _ n ih =>
    by_cases hn : n < 10
    · rw [stream_lt u hn]; exact h n hn
    · obtain ⟨m, rfl⟩ : ∃ m, n = m + 10 := ⟨n - 10, by omega⟩
      rw [stream_succ, modSum_eq (ih m (by omega)).1 (ih (m + 3) (by omega)).1]
      exact ⟨Int.emod_nonneg _ unit_pos.ne', Int.emod_lt_of_pos _ unit_pos⟩

theorem stream_odd (u : Nat → Int) (h : ∃ i < 10, u i % 2 = 1) (n : Nat) :
    ∃ i < 10, stream u (n + i) % 2 = 1 := by
  induction n with
  | zero =>
    obtain ⟨i, hi, h⟩ := h
    exact ⟨i, hi, by rw [Nat.zero_add, stream_lt u hi]; exact h⟩
  | succ n ih =>
    obtain ⟨i, hi, h⟩ := ih
    by_cases h0 : i = 0
    · subst h0
      by_cases h3 : stream u (n + 3) % 2 = 1
      · exact ⟨2, by omega, by rw [show n + 1 + 2 = n + 3 by omega]; exact h3⟩
      · refine ⟨9, by omega, ?_⟩
        rw [show n + 1 + 9 = n + 10 by omega, stream_succ]
        have : ∀ a c : Int, modSum a c % 2 = (a + c) % 2 := by
          intro a c
          unfold modSum unit
          omega
        rw [this]
        rw [Nat.add_zero] at h
        omega
    · exact ⟨i - 1, by omega, by rw [show n + 1 + (i - 1) = n + i by omega]; exact h⟩

theorem warmUp_spec {x : Nat → Int} (hx : ∀ n, x (n + 10) = modSum (x n) (x (n + 3))) (k : Nat) :
    ∀ (m : Nat) (u ranU : List Int), u.length = 19 → ranU.length = 10 → Holds x m ranU 10 →
    ∃ r, warmUp modSum k u ranU = .ok r ∧ r.length = 10 ∧ Holds x (m + 19 * k) r 10 := by
  induction k with
  | zero => intro m u ranU _ hl h; exact ⟨ranU, rfl, hl, h⟩
  | succ k ih =>
    intro m u ranU hu hl h
    obtain ⟨aa, u', e, l1, _, l2, h2⟩ := getArray_spec hx (n := 19) (by omega) hl h hu
    obtain ⟨r, e2, l3, h3⟩ := ih (m + 19) aa u' l1 l2 h2
    refine ⟨r, ?_, l3, by rw [show m + 19 * (k + 1) = m + 19 + 19 * k by omega]; exact h3⟩
    unfold warmUp
    have e' : getArray modSum ranU u 19 = .ok (aa, u') := e
    simp only [e', bind, Except.bind]
    exact e2

/-- What a generator needs to be usable: its arrays have their sizes. -/
structure Rng.Sized (r : Rng) : Prop where
  ranU : r.ranU.length = 10
  buf : r.buf.length = 19

/-- Seeding: for each value of the low 30 bits there is one stream. -/
theorem setSeed_spec (s : Nat) (hs : s < 2 ^ 30) :
    ∃ x : Nat → Int, (∀ n, x (n + 10) = modSum (x n) (x (n + 3))) ∧ (∀ n, 0 ≤ x n ∧ x n < unit) ∧
      (∀ n, ∃ i < 10, x (n + i) % 2 = 1) ∧
      ∀ seed junk r, low30 seed = s → junk.length = 9 → r.Sized →
        ∃ r', setSeed junk r seed = .ok r' ∧ r'.ptr = .sentinel ∧ r'.Sized ∧ Holds x 0 r'.ranU 10 := by
  obtain ⟨a, ha, har, ⟨v1, hv1, hv2⟩, hseed⟩ := seedBuffer_spec s hs
  obtain ⟨M, hM, hloop⟩ := seedLoop_junk modSum 0 a ha s hs
  have hj := hloop (List.replicate 9 0) (by simp)
  have hrange := seedLoop_inUnit a _ ha (by simp) har s hs hj
  obtain ⟨v, hv, hodd⟩ := seedLoop_parity (by simp [ha]) ⟨v1, by
    rw [List.take_left' ha]; exact hv1, hv2⟩ hj
  -- the state before warming up
  let perm : Nat → Nat := fun i => if i < 3 then i + 7 else i - 3
  let y : Nat → Int := stream fun i => M.getD (perm i) 0
  have hperm : ∀ i < 10, perm i < 10 := by intro i hi; simp only [perm]; split_ifs <;> omega
  have hy : ∀ n, y (n + 10) = modSum (y n) (y (n + 3)) := stream_succ _
  have hMget : ∀ i < 19, M[i]? = some (M.getD i 0) := by
    intro i hi
    rw [List.getD_eq_getElem?_getD, List.getElem?_eq_getElem (by omega)]
    rfl
  have hMmem : ∀ i < 19, M.getD i 0 ∈ M := by
    intro i hi
    rw [List.getD_eq_getElem _ _ (by omega)]
    exact List.getElem_mem _
  have hyr : ∀ n, 0 ≤ y n ∧ y n < unit := stream_range _ fun i hi =>
    hrange _ (hMmem _ (by have := hperm i hi; omega))
  have hyo : ∀ n, ∃ i < 10, y (n + i) % 2 = 1 := by
    refine stream_odd _ ?_
    obtain ⟨i, hi, rfl⟩ := List.getElem_of_mem hv
    rw [List.length_take] at hi
    rw [List.getElem_take] at hodd
    refine ⟨if i < 7 then i + 3 else i - 7, by split_ifs <;> omega, ?_⟩
    have : perm (if i < 7 then i + 3 else i - 7) = i := by
      simp only [perm]
      split_ifs <;> omega
    rw [this, List.getD_eq_getElem _ _ (by omega)]
    exact hodd
  refine ⟨fun n => y (190 + n), fun n => hy (190 + n), fun n => hyr _, fun n => ?_, ?_⟩
  · obtain ⟨i, hi, h⟩ := hyo (190 + n)
    exact ⟨i, hi, by simp only [← add_assoc]; exact h⟩
  intro seed junk r hlow hjl hsz
  obtain ⟨r0, hr0, hat⟩ := install_spec M r.ranU hM hsz.ranU
  have hr0l : r0.length = 10 := by rw [hat.length_eq]; rfl
  have hhold : Holds y 0 r0 10 := by
    intro i hi
    rw [Nat.zero_add]
    have hyi : y i = M.getD (perm i) 0 := stream_lt _ hi
    rw [hyi, ← hMget _ (by have := hperm i hi; omega)]
    have := (List.forall₂_iff_get.mp hat).2 i (by omega) (by simpa using hi)
    have e := this (perm i) (by
      simp only [List.get_eq_getElem]
      interval_cases i <;> rfl)
    rw [e, List.getElem?_eq_getElem (by omega)]
    rfl
  obtain ⟨r1, e1, l1, h1⟩ := warmUp_spec hy 10 0 M r0 hM hr0l hhold
  refine ⟨{ r with ranU := r1, ptr := .sentinel }, ?_, rfl, ⟨l1, hsz.buf⟩, ?_⟩
  · unfold setSeed
    simp only [hseed seed junk hlow, hlow, hloop junk hjl, hr0, e1, bind, Except.bind]
    rfl
  · intro i hi
    have := h1 i hi
    rw [show 0 + 19 * 10 + i = 190 + (0 + i) by omega] at this
    exact this

/-! ### Drawing -/

/-- Where the generator stands after `k` draws. -/
structure Stands (x : Nat → Int) (r : Rng) (k : Nat) : Prop where
  sized : r.Sized
  ranU : Holds x (19 * ((k + 9) / 10)) r.ranU 10
  ptr : r.ptr = if k = 0 then .sentinel else .at (((k - 1) % 10 + 1 : Nat) : Int)
  buf : k ≠ 0 → Holds x (19 * ((k - 1) / 10)) r.buf 10 ∧ r.buf[10]? = some (-unit)

theorem cycle_spec {x : Nat → Int} (hx : ∀ n, x (n + 10) = modSum (x n) (x (n + 3))) {r : Rng} {m : Nat}
    (hs : r.Sized) (hr : Holds x m r.ranU 10) :
    ∃ r', cycle r = .ok (x m, r') ∧ r'.Sized ∧ Holds x (m + 19) r'.ranU 10 ∧ r'.ptr = .at 1 ∧
      Holds x m r'.buf 10 ∧ r'.buf[10]? = some (-unit) := by
  obtain ⟨aa, u', e, l1, h1, l2, h2⟩ := getArray_spec hx (n := 19) (by omega) hs.ranU hr hs.buf
  have e' : getArray modSum r.ranU r.buf 19 = .ok (aa, u') := e
  have e2 : wr aa 10 (-unit) = .ok (aa.set 10 (-unit)) := wr_ok (i := 10) _ (by omega)
  have hb : Holds x m (aa.set 10 (-unit)) 10 := by
    intro i hi
    rw [List.getElem?_set_ne (by omega)]
    exact h1 i (by omega)
  have e3 : rd (aa.set 10 (-unit)) 0 = .ok (x m) := rd_ok (i := 0) (hb 0 (by omega))
  refine ⟨{ ranU := u', buf := aa.set 10 (-unit), ptr := .at 1 }, ?_, ⟨l2, by simpa using l1⟩, h2, rfl, hb, ?_⟩
  · unfold cycle
    simp only [e', e2, e3, bind, Except.bind]
    rfl
  · rw [List.getElem?_set_self (by omega)]

theorem next_spec {x : Nat → Int} (hx : ∀ n, x (n + 10) = modSum (x n) (x (n + 3)))
    (hr : ∀ n, 0 ≤ x n ∧ x n < unit) {r : Rng} {k : Nat} (h : Stands x r k) :
    ∃ r', next r = .ok (x (19 * (k / 10) + k % 10), r') ∧ Stands x r' (k + 1) := by
  obtain ⟨r1, e1, s1, u1, p1, b1, n1⟩ := cycle_spec hx h.sized h.ranU
  by_cases hc : k % 10 = 0
  · have hcyc : next r = cycle r := by
      unfold next
      rw [h.ptr]
      by_cases h0 : k = 0
      · rw [if_pos h0]
      · rw [if_neg h0]
        have : ((k - 1) % 10 + 1 : Nat) = 10 := by omega
        rw [this]
        have e : rd r.buf ((10 : Nat) : Int) = .ok (-unit) := rd_ok (h.buf h0).2
        simp only [e, bind, Except.bind]
        rw [if_neg (by unfold unit; omega)]
    refine ⟨r1, ?_, s1, ?_, ?_, fun _ => ⟨?_, n1⟩⟩
    · rw [hcyc, e1, hc, show (k + 9) / 10 = k / 10 by omega]; rfl
    · rw [show 19 * ((k + 1 + 9) / 10) = 19 * ((k + 9) / 10) + 19 by omega]; exact u1
    · rw [p1, if_neg (by omega), show (k + 1 - 1) % 10 + 1 = 1 by omega]; rfl
    · rw [show 19 * ((k + 1 - 1) / 10) = 19 * ((k + 9) / 10) by omega]; exact b1
  · have h0 : k ≠ 0 := by rintro rfl; exact hc rfl
    obtain ⟨hb, hn⟩ := h.buf h0
    have hi : ((k - 1) % 10 + 1 : Nat) = k % 10 := by omega
    have e : rd r.buf ((k % 10 : Nat) : Int) = .ok (x (19 * (k / 10) + k % 10)) := by
      have := rd_ok (hb (k % 10) (by omega))
      rw [show 19 * ((k - 1) / 10) = 19 * (k / 10) by omega] at this
      exact this
    refine ⟨{ r with ptr := .at (((k % 10 : Nat) : Int) + 1) }, ?_, ⟨h.sized.1, h.sized.2⟩, ?_, ?_, fun _ => ⟨?_, hn⟩⟩
    · unfold next
      rw [h.ptr, if_neg h0, hi]
      simp only [e, bind, Except.bind]
      rw [if_pos (hr _).1]
      rfl
    · rw [show 19 * ((k + 1 + 9) / 10) = 19 * ((k + 9) / 10) by omega]; exact h.ranU
    · rw [if_neg (by omega), show (k + 1 - 1) % 10 + 1 = k % 10 + 1 by omega]; push_cast; rfl
    · rw [show 19 * ((k + 1 - 1) / 10) = 19 * ((k - 1) / 10) by omega]; exact hb

theorem draws_spec {x : Nat → Int} (hx : ∀ n, x (n + 10) = modSum (x n) (x (n + 3)))
    (hr : ∀ n, 0 ≤ x n ∧ x n < unit) (n : Nat) : ∀ {r : Rng} {k : Nat}, Stands x r k →
    ∃ r', draws n r = .ok ((List.range n).map fun i => x (19 * ((k + i) / 10) + (k + i) % 10), r') ∧
      Stands x r' (k + n) := by
  induction n with
  | zero => intro r k h; exact ⟨r, rfl, h⟩
  | succ n ih =>
    intro r k h
    obtain ⟨r1, e1, h1⟩ := next_spec hx hr h
    obtain ⟨r2, e2, h2⟩ := ih h1
    refine ⟨r2, ?_, by rw [show k + (n + 1) = k + 1 + n by omega]; exact h2⟩
    unfold draws
    simp only [e1, e2, bind, Except.bind]
    rw [List.range_succ_eq_map, List.map_cons, List.map_map]
    simp only [pure, Except.pure, Function.comp_def, add_zero]
    congr 3
    apply List.map_congr_left
    intro i _
    rw [show k + 1 + i = k + i.succ by omega]

end Verif.Rng
