import Verif.Model.Buckets
import Mathlib.Tactic.Linarith
import Mathlib.Tactic.IntervalCases

/-! # Helper lemmas for the smudge buckets -/

namespace Verif.Engine
open Verif.Rng

variable {K : Type}

/-- The nine floats of a bucket. -/
def Bucket.toList (v : Bucket K) : List K := [v.r, v.g, v.b, v.a, v.prevR, v.prevG, v.prevB, v.prevA, v.recentness]

theorem rd_ok {l : List K} {i : Nat} (h : i < l.length) : rd l (i : Int) = .ok l[i] := by
  unfold rd
  rw [if_neg (by omega)]
  simp [h]

theorem wr_ok {l : List K} {i : Nat} (h : i < l.length) (v : K) : wr l (i : Int) v = .ok (l.set i v) := by
  unfold wr
  rw [if_neg (by omega)]
  simp [h]

theorem rd_neg {l : List K} {i : Int} (h : i < 0) : rd l i = .error .outOfBounds := by
  unfold rd; rw [if_pos h]

theorem wr_neg {l : List K} {i : Int} (h : i < 0) (v : K) : wr l i v = .error .outOfBounds := by
  unfold wr; rw [if_pos h]

theorem readBucket_ok {l : List K} {o : Nat} (h : o + 9 ≤ l.length) :
    readBucket l (o : Int) = .ok ⟨l[o], l[o + 1], l[o + 2], l[o + 3], l[o + 4], l[o + 5], l[o + 6], l[o + 7], l[o + 8]⟩ := by
  unfold readBucket
  have e (k : Nat) : ((o : Int) + (k : Int)) = ((o + k : Nat) : Int) := by push_cast; rfl
  have r (k : Nat) (hk : k < 9) : rd l ((o : Int) + (k : Int)) = .ok (l[o + k]'(by omega)) := by
    rw [e]; exact rd_ok (by omega)
  rw [rd_ok (by omega)]
  have r1 := r 1 (by omega); have r2 := r 2 (by omega); have r3 := r 3 (by omega); have r4 := r 4 (by omega)
  have r5 := r 5 (by omega); have r6 := r 6 (by omega); have r7 := r 7 (by omega); have r8 := r 8 (by omega)
  simp only [Nat.cast_ofNat, Nat.cast_one] at r1 r2 r3 r4 r5 r6 r7 r8
  rw [r1, r2, r3, r4, r5, r6, r7, r8]
  rfl

/-- What nine writes do to a list. -/
def setNine (l : List K) (o : Nat) (v : Bucket K) : List K :=
  ((((((((l.set o v.r).set (o + 1) v.g).set (o + 2) v.b).set (o + 3) v.a).set (o + 4) v.prevR).set (o + 5) v.prevG).set
    (o + 6) v.prevB).set (o + 7) v.prevA).set (o + 8) v.recentness

theorem writeBucket_ok {l : List K} {o : Nat} (h : o + 9 ≤ l.length) (v : Bucket K) :
    writeBucket l (o : Int) v = .ok (setNine l o v) := by
  unfold writeBucket setNine
  have e (k : Nat) : ((o : Int) + (k : Int)) = ((o + k : Nat) : Int) := by push_cast; rfl
  have w (k : Nat) (m : List K) (x : K) (hk : k < 9) (hm : m.length = l.length) :
      wr m ((o : Int) + (k : Int)) x = .ok (m.set (o + k) x) := by
    rw [e]; exact wr_ok (by omega) x
  have w1 := fun m x => w 1 m x (by omega); have w2 := fun m x => w 2 m x (by omega)
  have w3 := fun m x => w 3 m x (by omega); have w4 := fun m x => w 4 m x (by omega)
  have w5 := fun m x => w 5 m x (by omega); have w6 := fun m x => w 6 m x (by omega)
  have w7 := fun m x => w 7 m x (by omega); have w8 := fun m x => w 8 m x (by omega)
  simp only [Nat.cast_ofNat, Nat.cast_one] at w1 w2 w3 w4 w5 w6 w7 w8
  rw [wr_ok (by omega)]
  simp only [bind, Except.bind]
  rw [w1 _ _ (by simp)]; simp only
  rw [w2 _ _ (by simp)]; simp only
  rw [w3 _ _ (by simp)]; simp only
  rw [w4 _ _ (by simp)]; simp only
  rw [w5 _ _ (by simp)]; simp only
  rw [w6 _ _ (by simp)]; simp only
  rw [w7 _ _ (by simp)]; simp only
  rw [w8 _ _ (by simp)]

theorem setNine_length (l : List K) (o : Nat) (v : Bucket K) : (setNine l o v).length = l.length := by
  simp [setNine]

theorem setNine_get_in (l : List K) (o : Nat) (v : Bucket K) (h : o + 9 ≤ l.length) (k : Nat) (hk : k < 9) :
    (setNine l o v)[o + k]? = v.toList[k]? := by
  have hl : o + k < l.length := by omega
  unfold setNine Bucket.toList
  simp only [List.getElem?_set, List.length_set]
  interval_cases k <;> simp <;> omega

theorem setNine_get_out (l : List K) (o : Nat) (v : Bucket K) (j : Nat) (hj : j < o ∨ o + 9 ≤ j) :
    (setNine l o v)[j]? = l[j]? := by
  unfold setNine
  simp only [List.getElem?_set, List.length_set]
  rw [if_neg (by omega), if_neg (by omega), if_neg (by omega), if_neg (by omega), if_neg (by omega),
    if_neg (by omega), if_neg (by omega), if_neg (by omega), if_neg (by omega)]

/-- A bucket read is determined by the nine floats. -/
theorem readBucket_eq {l : List K} {o : Nat} (h : o + 9 ≤ l.length) (v : Bucket K) :
    readBucket l (o : Int) = .ok v ↔ ∀ k, k < 9 → l[o + k]? = v.toList[k]? := by
  rw [readBucket_ok h]
  constructor
  · intro e k hk
    have e := Except.ok.inj e
    subst e
    unfold Bucket.toList
    interval_cases k <;> simp <;> omega
  · intro e
    congr 1
    have g (k : Nat) (hk : k < 9) : v.toList[k]? = some (l[o + k]'(by omega)) := by
      rw [← e k hk]; exact List.getElem?_eq_getElem _
    have g0 := g 0 (by omega); have g1 := g 1 (by omega); have g2 := g 2 (by omega); have g3 := g 3 (by omega)
    have g4 := g 4 (by omega); have g5 := g 5 (by omega); have g6 := g 6 (by omega); have g7 := g 7 (by omega)
    have g8 := g 8 (by omega)
    simp only [Bucket.toList, List.getElem?_cons_zero, List.getElem?_cons_succ, Option.some.injEq] at g0 g1 g2 g3 g4 g5 g6 g7 g8
    ext <;> simp_all

theorem read_setNine {l : List K} {o : Nat} (h : o + 9 ≤ l.length) (v : Bucket K) :
    readBucket (setNine l o v) (o : Int) = .ok v := by
  rw [readBucket_eq (by rw [setNine_length]; exact h)]
  exact fun k hk => setNine_get_in l o v h k hk

theorem read_setNine_far {l : List K} {o p : Nat} (hp : p + 9 ≤ l.length) (v : Bucket K)
    (hd : p + 9 ≤ o ∨ o + 9 ≤ p) : readBucket (setNine l o v) (p : Int) = readBucket l (p : Int) := by
  have e := readBucket_ok hp
  rw [e, readBucket_eq (by rw [setNine_length]; exact hp)]
  intro k hk
  rw [setNine_get_out _ _ _ _ (by omega)]
  exact (readBucket_eq hp _).mp e k hk

theorem readBucket_congr {l m : List K} {o : Nat} (hl : o + 9 ≤ l.length) (hm : o + 9 ≤ m.length)
    (h : ∀ k, k < 9 → l[o + k]? = m[o + k]?) : readBucket l (o : Int) = readBucket m (o : Int) := by
  have e := readBucket_ok hm
  rw [e, readBucket_eq hl]
  intro k hk
  rw [h k hk]
  exact (readBucket_eq hm _).mp e k hk

/-- `memset` inside the array. -/
theorem zeroFill_ok [Zero K] (n : Nat) : ∀ (start : Nat) (l : List K), start + n ≤ l.length →
    ∃ m, zeroFill (start : Int) n l = .ok m ∧ m.length = l.length ∧
      ∀ j : Nat, m[j]? = if start ≤ j ∧ j < start + n then some 0 else l[j]? := by
  induction n with
  | zero =>
    intro start l h
    refine ⟨l, rfl, rfl, fun j => ?_⟩
    rw [if_neg (by omega)]
  | succ n ih =>
    intro start l h
    have hs : start + 1 + n ≤ (l.set start 0).length := by rw [List.length_set]; omega
    obtain ⟨m, e, hm, hj⟩ := ih (start + 1) (l.set start 0) hs
    refine ⟨m, ?_, by rw [hm, List.length_set], fun j => ?_⟩
    · unfold zeroFill
      rw [wr_ok (by omega)]
      simp only [bind, Except.bind]
      push_cast at e
      exact e
    · rw [hj, List.getElem?_set]
      by_cases h1 : start = j
      · subst h1
        rw [if_neg (by omega), if_pos rfl, if_pos (by omega), if_pos (by omega)]
      · rw [if_neg h1]
        by_cases h2 : start + 1 ≤ j ∧ j < start + 1 + n
        · rw [if_pos h2, if_pos (by omega)]
        · rw [if_neg h2, if_neg (by omega)]

end Verif.Engine
