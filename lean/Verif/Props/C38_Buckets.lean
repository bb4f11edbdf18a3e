import Verif.Lemmas.Buckets
import Mathlib.Data.Rat.Defs

/-!
# C38 and C39: smudge buckets

C38: setting the state of one bucket and reading it back returns what was set, does not change any other
bucket, and is the state the brush engine uses for that bucket. Only the first part holds: the functions of the
API address the bucket `i` at the float `i`, the engine at the float `9 i`.

C39 (the part about buckets): a reset leaves nothing of what the buckets held. It does not: the buckets
set through the API are not known to be used, and the engine's buckets are cleared at the wrong place.
-/

namespace Verif.Engine
open Verif.Rng

variable {K : Type}

/-- A brush with smudge buckets: the array has nine floats for each, and the range of used buckets is empty or
inside the array. -/
structure Valid (b : Buckets K) : Prop where
  num : 0 ≤ b.num
  len : (b.mem.length : Int) = 9 * b.num
  used : b.num = 0 ∨ (b.minUsed = -1 ∧ b.maxUsed = -1) ∨
    (0 ≤ b.minUsed ∧ b.minUsed ≤ b.maxUsed ∧ b.maxUsed < b.num)

/-- What can happen to the buckets of a brush. -/
inductive BucketOp (K : Type) where
  /-- `mypaint_brush_set_smudge_bucket_state` -/
  | set (index : Int) (v : Bucket K)
  /-- the engine stores a smudge colour; `want` is the rounded value of the setting -/
  | engine (want : Int) (v : Bucket K)
  /-- the brush is reset -/
  | reset

def bucketOp [Zero K] (b : Buckets K) : BucketOp K → Except Fault (Buckets K)
  | .set i v => do
    let r ← setBucketState b i v
    return r.2
  | .engine want v => do
    if b.num = 0 then return b
    else
      let p := fetchBucket b want
      let mem ← writeBucket p.2.mem p.1 v
      return { p.2 with mem := mem }
  | .reset => resetBuckets b

def bucketRun [Zero K] : Buckets K → List (BucketOp K) → Except Fault (Buckets K)
  | b, [] => .ok b
  | b, o :: os => do
    let b ← bucketOp b o
    bucketRun b os

def BucketOp.indexOk : BucketOp K → Prop
  | .set i _ => 0 ≤ i
  | _ => True

theorem new_valid (fresh : List K) (num : Int) (junk : Int × Int) (hf : 0 < num → (fresh.length : Int) = 9 * num) :
    Valid (newBuckets fresh num junk) := by
  unfold newBuckets
  split_ifs with h
  · exact ⟨by simp only; omega, hf h, .inr (.inr ⟨by simp only; omega, by simp only; omega, by simp only; omega⟩)⟩
  · exact ⟨le_refl _, by simp, .inl rfl⟩

/-- The first test, for an index that exists. -/
theorem set_ok {b : Buckets K} (hb : Valid b) {i : Nat} (hi : (i : Int) < b.num) (v : Bucket K) :
    setBucketState b i v = .ok (true, { b with mem := setNine b.mem i v }) := by
  unfold setBucketState
  rw [if_pos hi, writeBucket_ok (by have := hb.len; omega)]
  rfl

theorem get_ok {b : Buckets K} {i : Nat} (hi : (i : Int) < b.num) {v : Bucket K}
    (h : readBucket b.mem i = .ok v) : getBucketState b i = .ok (some v) := by
  unfold getBucketState
  rw [if_pos hi, h]
  rfl

/-- What was set is what is read back. -/
theorem bucket_read_back {b : Buckets K} (hb : Valid b) {i : Nat} (hi : (i : Int) < b.num) (v : Bucket K) :
    ∃ b', setBucketState b i v = .ok (true, b') ∧ Valid b' ∧ getBucketState b' i = .ok (some v) := by
  refine ⟨_, set_ok hb hi v, ⟨hb.num, ?_, hb.used⟩, ?_⟩
  · simp only [setNine_length]; exact hb.len
  · exact get_ok (b := { b with mem := setNine b.mem i v }) hi (read_setNine (by have := hb.len; omega) v)

/-- An index beyond the last bucket is refused, and nothing changes. -/
theorem bucket_index_refused (b : Buckets K) {i : Int} (hi : b.num ≤ i) (v : Bucket K) :
    setBucketState b i v = .ok (false, b) ∧ getBucketState b i = .ok none := by
  unfold setBucketState getBucketState
  rw [if_neg (by omega), if_neg (by omega)]
  exact ⟨rfl, rfl⟩

/-- A negative index is not refused: memory outside of the array is written and read. -/
theorem negative_bucket_index_faults {b : Buckets K} (hb : Valid b) {i : Int} (hi : i < 0) (v : Bucket K) :
    setBucketState b i v = .error .outOfBounds ∧ getBucketState b i = .error .outOfBounds := by
  have := hb.num
  unfold setBucketState getBucketState writeBucket readBucket
  rw [if_pos (by omega), if_pos (by omega), wr_neg hi, rd_neg hi]
  exact ⟨rfl, rfl⟩

/-- Two buckets at least nine apart do not disturb each other. -/
theorem buckets_independent_partial {b : Buckets K} (hb : Valid b) {i j : Nat} (hi : (i : Int) < b.num)
    (hj : (j : Int) < b.num) (hd : i + 9 ≤ j ∨ j + 9 ≤ i) (v : Bucket K) :
    ∃ b', setBucketState b i v = .ok (true, b') ∧ getBucketState b' j = getBucketState b j := by
  refine ⟨_, set_ok hb hi v, ?_⟩
  unfold getBucketState
  simp only [if_pos hj]
  rw [read_setNine_far (by have := hb.len; omega) v (by omega)]

/-- Two different buckets less than nine apart do: whatever the first one held, setting the other one
changes it for some value. -/
theorem close_buckets_overlap {b : Buckets ℚ} (hb : Valid b) {i j : Nat} (hi : (i : Int) < b.num)
    (hj : (j : Int) < b.num) (hne : i ≠ j) (h1 : i < j + 9) (h2 : j < i + 9) (v : Bucket ℚ)
    (hv : getBucketState b i = .ok (some v)) :
    ∃ w b', setBucketState b j w = .ok (true, b') ∧ getBucketState b' i ≠ .ok (some v) := by
  have len := hb.len
  -- the float that both buckets share
  let p := max i j
  have hp : v.toList[p - i]? ≠ none := by
    have : p - i < 9 := by omega
    simp only [Bucket.toList, ne_eq, List.getElem?_eq_none_iff, List.length_cons, List.length_nil]
    omega
  obtain ⟨old, hold⟩ := Option.ne_none_iff_exists'.mp hp
  let w : Bucket ℚ := ⟨old + 1, old + 1, old + 1, old + 1, old + 1, old + 1, old + 1, old + 1, old + 1⟩
  refine ⟨w, _, set_ok hb hj w, ?_⟩
  intro h
  unfold getBucketState at h
  rw [if_pos (by exact hi)] at h
  simp only at h
  rw [readBucket_ok (by rw [setNine_length]; omega)] at h
  have h := Option.some.inj (Except.ok.inj h)
  have hr : readBucket (setNine b.mem j w) (i : Int) = .ok v := by
    rw [readBucket_ok (by rw [setNine_length]; omega), h]
  rw [readBucket_eq (by rw [setNine_length]; omega)] at hr
  have hr := hr (p - i) (by omega)
  have e1 : i + (p - i) = j + (p - j) := by omega
  rw [e1, setNine_get_in _ _ _ (by omega) (p - j) (by omega), hold] at hr
  have hw : w.toList[p - j]? = some (old + 1) := by
    have : p - j < 9 := by omega
    generalize p - j = k at this
    interval_cases k <;> rfl
  rw [hw] at hr
  have := Option.some.inj hr
  simp at this

/-- The place the engine uses for bucket `want` (after clamping). -/
theorem engine_position (b : Buckets K) {i : Nat} (hi : (i : Int) < b.num) :
    (fetchBucket b i).1 = 9 * i ∧ (fetchBucket b i).2.mem = b.mem := by
  unfold fetchBucket
  rw [if_neg (by omega), if_neg (by omega)]
  refine ⟨by show (i : Int) * 9 = _; omega, ?_⟩
  dsimp only
  split_ifs <;> rfl

/-- Bucket 0 is the only one that the engine and the API share: what is set there is what the engine uses. -/
theorem engine_uses_bucket_zero {b : Buckets K} (hb : Valid b) (h0 : 0 < b.num) (v : Bucket K) :
    ∃ b', setBucketState b 0 v = .ok (true, b') ∧
      readBucket (fetchBucket b' 0).2.mem (fetchBucket b' 0).1 = .ok v := by
  have h0' : ((0 : Nat) : Int) < b.num := h0
  refine ⟨_, set_ok hb h0' v, ?_⟩
  have e := engine_position (K := K) { b with mem := setNine b.mem 0 v } h0'
  simp only [Nat.cast_zero] at e
  rw [e.1, e.2]
  exact read_setNine (o := 0) (by have := hb.len; omega) v

/-- Any other bucket set through the API is not what the engine uses for it: the floats of a bucket from 2 on do
not even overlap, so that the engine's bucket keeps what it held. -/
theorem engine_ignores_api_buckets {b : Buckets K} (hb : Valid b) {i : Nat} (hi : (i : Int) < b.num)
    (h2 : 2 ≤ i) (v : Bucket K) :
    ∃ b', setBucketState b i v = .ok (true, b') ∧
      readBucket (fetchBucket b' i).2.mem (fetchBucket b' i).1 =
        readBucket (fetchBucket b i).2.mem (fetchBucket b i).1 := by
  refine ⟨_, set_ok hb hi v, ?_⟩
  have e := engine_position (K := K) { b with mem := setNine b.mem i v } hi
  have e' := engine_position b hi
  rw [e.1, e.2, e'.1, e'.2]
  have := hb.len
  exact read_setNine_far (p := 9 * i) (by omega) v (by omega)

/-! ### Reset -/

theorem reset_buckets_ok [Zero K] {b : Buckets K} (hb : Valid b) (h0 : 0 < b.num) (hu : 0 ≤ b.minUsed) :
    ∃ mem, resetBuckets b = .ok { b with mem := mem, minUsed := -1, maxUsed := -1 } ∧
      mem.length = b.mem.length ∧
      ∀ j : Nat, mem[j]? = if b.minUsed ≤ j ∧ (j : Int) < b.minUsed + 9 * (b.maxUsed - b.minUsed + 1) then some 0
        else b.mem[j]? := by
  have len := hb.len
  have used := hb.used
  obtain ⟨lo, hlo⟩ := Int.eq_ofNat_of_zero_le hu
  have hb2 : lo + ((b.maxUsed - b.minUsed + 1) * bucketSize).toNat ≤ b.mem.length := by
    show lo + ((b.maxUsed - b.minUsed + 1) * 9).toNat ≤ b.mem.length
    omega
  obtain ⟨mem, e, hm, hj⟩ := zeroFill_ok _ lo b.mem hb2
  refine ⟨mem, ?_, hm, fun j => ?_⟩
  · unfold resetBuckets
    have hne : b.mem.isEmpty = false := by
      rw [List.isEmpty_eq_false_iff]
      intro h
      rw [h] at len
      simp only [List.length_nil, Nat.cast_zero] at len
      omega
    rw [hne, if_neg (by simp), if_pos (by omega)]
    rw [hlo] at e ⊢
    rw [e]
    rfl
  · rw [hj]
    have : ((b.maxUsed - b.minUsed + 1) * bucketSize).toNat = (9 * (b.maxUsed - b.minUsed + 1)).toNat := by
      show ((b.maxUsed - b.minUsed + 1) * 9).toNat = _
      congr 1; omega
    rw [this]
    have hw : (lo ≤ j ∧ j < lo + (9 * (b.maxUsed - b.minUsed + 1)).toNat) ↔
        (b.minUsed ≤ j ∧ (j : Int) < b.minUsed + 9 * (b.maxUsed - b.minUsed + 1)) := by omega
    simp only [hw]

/-- A new brush has all its buckets cleared by the reset in its constructor, whatever the memory held. -/
theorem new_buckets_are_clear [Zero K] (fresh : List K) (num : Int) (junk : Int × Int) (hn : 0 < num)
    (hf : (fresh.length : Int) = 9 * num) :
    ∃ b, resetBuckets (newBuckets fresh num junk) = .ok b ∧ Valid b ∧ b.num = num ∧
      ∀ i : Nat, (i : Int) < num → readBucket b.mem (9 * i) = .ok ⟨0, 0, 0, 0, 0, 0, 0, 0, 0⟩ := by
  have hv := new_valid fresh num junk (fun _ => hf)
  have e : newBuckets fresh num junk = ⟨fresh, num, 0, num - 1⟩ := by
    unfold newBuckets; rw [if_pos hn]
  rw [e] at hv ⊢
  obtain ⟨mem, er, hm, hj⟩ := reset_buckets_ok hv hn (le_refl _)
  refine ⟨_, er, ⟨hv.num, ?_, .inr (.inl ⟨rfl, rfl⟩)⟩, rfl, ?_⟩
  · simp only at hm ⊢; rw [hm]; exact hf
  · intro i hi
    simp only at hm hj ⊢
    have hr := readBucket_eq (l := mem) (o := 9 * i) (by rw [hm]; omega) (⟨0, 0, 0, 0, 0, 0, 0, 0, 0⟩ : Bucket K)
    have c : ((9 * i : Nat) : Int) = 9 * (i : Int) := by push_cast; rfl
    rw [c] at hr
    rw [hr]
    intro k hk
    rw [hj, if_pos (by push_cast; omega)]
    interval_cases k <;> rfl

/-- Nothing in the history of a brush makes the engine or a reset touch memory outside the array, as long as the
API is not given a negative index. -/
theorem buckets_stay_in_bounds [Zero K] (os : List (BucketOp K)) : ∀ (b : Buckets K), Valid b →
    (∀ o ∈ os, o.indexOk) → ∃ b', bucketRun b os = .ok b' ∧ Valid b' ∧ b'.num = b.num := by
  induction os with
  | nil => exact fun b hb _ => ⟨b, rfl, hb, rfl⟩
  | cons o os ih =>
    intro b hb ho
    have key : ∃ b1, bucketOp b o = .ok b1 ∧ Valid b1 ∧ b1.num = b.num := by
      have len := hb.len
      have used := hb.used
      have num := hb.num
      cases o with
      | set i v =>
        have hi : 0 ≤ i := ho _ List.mem_cons_self
        by_cases h : i < b.num
        · obtain ⟨n, rfl⟩ := Int.eq_ofNat_of_zero_le hi
          obtain ⟨b1, e, hv, -⟩ := bucket_read_back hb h v
          have e' : setBucketState b (n : Int) v = .ok (true, b1) := e
          refine ⟨b1, by unfold bucketOp; dsimp only; rw [e']; rfl, hv, ?_⟩
          rw [set_ok hb h v] at e
          have := (Prod.mk.inj (Except.ok.inj e)).2
          rw [← this]
        · refine ⟨b, ?_, hb, rfl⟩
          unfold bucketOp
          dsimp only
          rw [(bucket_index_refused b (i := i) (by omega) v).1]
          rfl
      | engine want v =>
        by_cases h0 : b.num = 0
        · exact ⟨b, by unfold bucketOp; dsimp only; rw [if_pos h0]; rfl, hb, rfl⟩
        · have hidx : ∃ n : Nat, (n : Int) < b.num ∧
              (if want > b.num - 1 then b.num - 1 else if want < 0 then 0 else want) = (n : Int) := by
            refine ⟨(if want > b.num - 1 then b.num - 1 else if want < 0 then 0 else want).toNat, ?_, ?_⟩ <;>
              split_ifs <;> omega
          obtain ⟨n, hn, hi⟩ := hidx
          have hf : ∃ lo hi : Int, fetchBucket b want = (((9 * n : Nat) : Int), { b with minUsed := lo, maxUsed := hi }) ∧
              0 ≤ lo ∧ lo ≤ hi ∧ hi < b.num := by
            unfold fetchBucket
            rw [hi]
            dsimp only
            have e9 : (n : Int) * bucketSize = ((9 * n : Nat) : Int) := by
              show (n : Int) * 9 = _; push_cast; omega
            rw [e9]
            by_cases c1 : b.minUsed = -1 ∨ b.minUsed > n
            · by_cases c2 : b.maxUsed < n
              · exact ⟨n, n, by simp [c1, c2], by omega, by omega, by omega⟩
              · exact ⟨n, b.maxUsed, by simp [c1, c2], by omega, by omega, by omega⟩
            · by_cases c2 : b.maxUsed < n
              · exact ⟨b.minUsed, n, by simp [c1, c2], by omega, by omega, by omega⟩
              · exact ⟨b.minUsed, b.maxUsed, by simp [c1, c2], by omega, by omega, by omega⟩
          obtain ⟨lo, hi', ef, h1, h2, h3⟩ := hf
          refine ⟨{ b with mem := setNine b.mem (9 * n) v, minUsed := lo, maxUsed := hi' }, ?_,
            ⟨num, ?_, .inr (.inr ⟨h1, h2, h3⟩)⟩, rfl⟩
          · unfold bucketOp
            dsimp only
            rw [if_neg h0, ef]
            simp only
            rw [writeBucket_ok (by omega)]
            rfl
          · simp only [setNine_length]; exact len
      | reset =>
        by_cases h0 : b.num = 0
        · refine ⟨b, ?_, hb, rfl⟩
          unfold bucketOp resetBuckets
          dsimp only
          have : b.mem.isEmpty = true := by
            rw [List.isEmpty_iff_length_eq_zero]; omega
          rw [this]; rfl
        · by_cases hu : b.minUsed = -1
          · refine ⟨b, ?_, hb, rfl⟩
            unfold bucketOp resetBuckets
            dsimp only
            rw [if_neg (not_not.mpr hu)]
            split_ifs <;> rfl
          · obtain ⟨mem, e, hm, -⟩ := reset_buckets_ok hb (by omega) (by omega)
            refine ⟨_, e, ⟨num, ?_, .inr (.inl ⟨rfl, rfl⟩)⟩, rfl⟩
            simp only; rw [hm]; exact len
    obtain ⟨b1, e, hv, hn⟩ := key
    obtain ⟨b2, e2, hv2, hn2⟩ := ih b1 hv (fun o h => ho o (List.mem_cons_of_mem _ h))
    refine ⟨b2, ?_, hv2, by rw [hn2, hn]⟩
    unfold bucketRun
    rw [e]
    exact e2

/-- When the lowest used bucket is bucket 0, a reset clears every bucket used. -/
theorem reset_clears_used_partial [Zero K] {b : Buckets K} (hb : Valid b) (h0 : 0 < b.num) (hu : b.minUsed = 0) :
    ∃ b', resetBuckets b = .ok b' ∧
      ∀ i : Nat, (i : Int) ≤ b.maxUsed → readBucket b'.mem (9 * i) = .ok ⟨0, 0, 0, 0, 0, 0, 0, 0, 0⟩ := by
  obtain ⟨mem, er, hm, hj⟩ := reset_buckets_ok hb h0 (by omega)
  refine ⟨_, er, ?_⟩
  intro i hi
  have len := hb.len
  have used := hb.used
  have hr := readBucket_eq (l := mem) (o := 9 * i) (by rw [hm]; omega) (⟨0, 0, 0, 0, 0, 0, 0, 0, 0⟩ : Bucket K)
  have c : ((9 * i : Nat) : Int) = 9 * (i : Int) := by push_cast; rfl
  rw [c] at hr
  rw [hr]
  intro k hk
  rw [hj, if_pos (by push_cast; omega)]
  interval_cases k <;> rfl

/-- In a new brush whose engine uses one bucket from 2 on, a reset leaves that bucket as it is. -/
theorem reset_keeps_engine_bucket [Zero K] (fresh : List K) (num : Int) (junk : Int × Int)
    (hf : (fresh.length : Int) = 9 * num) {i : Nat} (hi : (i : Int) < num) (h2 : 2 ≤ i) (v : Bucket K) :
    ∃ b, bucketRun (newBuckets fresh num junk) [.reset, .engine i v, .reset] = .ok b ∧
      readBucket b.mem (9 * i) = .ok v := by
  have hn : 0 < num := by omega
  obtain ⟨b0, e0, v0, n0, -⟩ := new_buckets_are_clear fresh num junk hn hf
  -- the reset in the constructor leaves no bucket marked as used
  have u0 : b0.minUsed = -1 ∧ b0.maxUsed = -1 := by
    have hv := new_valid fresh num junk (fun _ => hf)
    have e : newBuckets fresh num junk = ⟨fresh, num, 0, num - 1⟩ := by
      unfold newBuckets; rw [if_pos hn]
    rw [e] at hv e0
    obtain ⟨mem, er, -, -⟩ := reset_buckets_ok hv hn (le_refl _)
    rw [er] at e0
    rw [← Except.ok.inj e0]
    exact ⟨rfl, rfl⟩
  have len := v0.len
  rw [n0] at len
  let b1 : Buckets K := { b0 with mem := setNine b0.mem (9 * i) v, minUsed := i, maxUsed := i }
  have e1 : bucketOp b0 (.engine i v) = .ok b1 := by
    unfold bucketOp
    dsimp only
    rw [if_neg (by omega)]
    have ef : fetchBucket b0 i = (((9 * i : Nat) : Int), { b0 with minUsed := i, maxUsed := i }) := by
      unfold fetchBucket
      rw [if_neg (by omega), if_neg (by omega)]
      dsimp only
      have e9 : (i : Int) * bucketSize = ((9 * i : Nat) : Int) := by
        show (i : Int) * 9 = _; push_cast; omega
      rw [e9]
      simp [u0.1, u0.2]
      omega
    rw [ef]
    simp only
    rw [writeBucket_ok (by omega)]
    rfl
  have v1 : Valid b1 := ⟨v0.num, by simp only [b1, setNine_length]; exact v0.len,
    .inr (.inr ⟨by simp [b1], le_refl _, by simp only [b1]; omega⟩)⟩
  obtain ⟨mem, e2, hm, hj⟩ := reset_buckets_ok v1 (by simp only [b1]; omega) (by simp [b1])
  refine ⟨{ b1 with mem := mem, minUsed := -1, maxUsed := -1 }, ?_, ?_⟩
  · have : bucketOp (newBuckets fresh num junk) .reset = .ok b0 := e0
    simp only [bucketRun, bind, Except.bind]
    rw [this]
    simp only
    rw [e1]
    simp only
    have : bucketOp b1 .reset = .ok { b1 with mem := mem, minUsed := -1, maxUsed := -1 } := e2
    rw [this]
  · have hr := readBucket_eq (l := mem) (o := 9 * i) (by rw [hm]; simp only [b1, setNine_length]; omega) v
    have c : ((9 * i : Nat) : Int) = 9 * (i : Int) := by push_cast; rfl
    rw [c] at hr
    simp only
    rw [hr]
    intro k hk
    rw [hj, if_neg (by simp only [b1]; push_cast; omega)]
    exact setNine_get_in _ _ _ (by omega) k hk

/-- A bucket set through the API in a new brush survives a reset. -/
theorem reset_keeps_api_bucket [Zero K] (fresh : List K) (num : Int) (junk : Int × Int)
    (hf : (fresh.length : Int) = 9 * num) {i : Nat} (hi : (i : Int) < num) (v : Bucket K) :
    ∃ b, bucketRun (newBuckets fresh num junk) [.reset, .set i v, .reset] = .ok b ∧
      getBucketState b i = .ok (some v) := by
  have hn : 0 < num := by omega
  have hv := new_valid fresh num junk (fun _ => hf)
  have e : newBuckets fresh num junk = ⟨fresh, num, 0, num - 1⟩ := by
    unfold newBuckets; rw [if_pos hn]
  rw [e] at hv ⊢
  obtain ⟨mem, er, hm, -⟩ := reset_buckets_ok hv hn (le_refl _)
  simp only at hm er
  have v0 : Valid (⟨mem, num, -1, -1⟩ : Buckets K) :=
    ⟨hv.num, by simp only; rw [hm]; exact hf, .inr (.inl ⟨rfl, rfl⟩)⟩
  refine ⟨⟨setNine mem i v, num, -1, -1⟩, ?_, ?_⟩
  · have e1 : bucketOp (⟨fresh, num, 0, num - 1⟩ : Buckets K) .reset = .ok ⟨mem, num, -1, -1⟩ := er
    have e2 : bucketOp (⟨mem, num, -1, -1⟩ : Buckets K) (.set i v) = .ok ⟨setNine mem i v, num, -1, -1⟩ := by
      unfold bucketOp
      dsimp only
      rw [set_ok v0 hi v]
      rfl
    have e3 : bucketOp (⟨setNine mem i v, num, -1, -1⟩ : Buckets K) .reset =
        .ok ⟨setNine mem i v, num, -1, -1⟩ := by
      unfold bucketOp resetBuckets
      dsimp only
      simp only [ne_eq, not_true_eq_false, if_false]
      split_ifs <;> rfl
    simp only [bucketRun, bind, Except.bind]
    rw [e1]; simp only
    rw [e2]; simp only
    rw [e3]
  · exact get_ok (b := ⟨setNine mem i v, num, -1, -1⟩) hi (read_setNine (by omega) v)

/-- A brush without buckets does not report that no bucket is used (the documented answer is −1), but whatever its
memory held. -/
theorem used_range_uninitialised [Zero K] (fresh : List K) (junk : Int × Int) :
    ∃ b, resetBuckets (newBuckets fresh 0 junk) = .ok b ∧ b.minUsed = junk.1 ∧ b.maxUsed = junk.2 :=
  ⟨_, rfl, rfl, rfl⟩

/-! ### Concrete cases -/

/-- The two values set below. -/
def red : Bucket ℚ := ⟨1, 0, 0, 1, 1, 0, 0, 1, 1⟩
def green : Bucket ℚ := ⟨0, 1, 0, 1, 0, 1, 0, 1, 1⟩

/-- A brush with three buckets: valid, and setting bucket 1 changes bucket 0. -/
example : Valid (newBuckets (List.replicate 27 (0 : ℚ)) 3 (0, 0)) := new_valid _ _ _ (fun _ => by decide)

example : (do
    let a ← setBucketState (newBuckets (List.replicate 27 (0 : ℚ)) 3 (0, 0)) 0 red
    let b ← setBucketState a.2 1 green
    getBucketState b.2 0) = .ok (some ⟨1, 0, 1, 0, 1, 0, 1, 0, 1⟩) := by decide +kernel

/-- Bucket 2 of the engine survives a reset. -/
example : ∃ b, bucketRun (newBuckets (List.replicate 27 (7 : ℚ)) 3 (0, 0)) [.reset, .engine 2 red, .reset] = .ok b ∧
    readBucket b.mem 18 = .ok red :=
  reset_keeps_engine_bucket _ 3 _ (by decide) (i := 2) (by decide) (by decide) red

end Verif.Engine
