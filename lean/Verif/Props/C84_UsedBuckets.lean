import Verif.Props.C38_Buckets
import Verif.Props.C17_BlendModes
import Mathlib.Data.List.Induction

/-!
# C84: the reported range of smudge buckets

An application that records and replays strokes saves the smudge buckets a brush has used. It asks for the lowest and the highest
index (`mypaint_brush_get_min_smudge_bucket_used`, `mypaint_brush_get_max_smudge_bucket_used`), documented as those of the buckets
that have been written to, or -1 if there is none.
-/

namespace Verif.Engine

section
variable {K : Type} [Zero K]

/-- The bucket the engine uses: the setting, brought into the range of the buckets there are. -/
def nearest (num want : Int) : Int := max 0 (min (num - 1) want)

def BucketOp.isReset : BucketOp K → Bool
  | .reset => true
  | _ => false

/-- The bucket an operation of the engine writes. -/
def BucketOp.wrote (num : Int) : BucketOp K → Option Int
  | .engine want _ => some (nearest num want)
  | _ => none

/-- The buckets the engine has written since the last reset. -/
def written (num : Int) (os : List (BucketOp K)) : List Int :=
  (os.reverse.takeWhile fun o => !o.isReset).filterMap (BucketOp.wrote num)

/-- What is reported. -/
def Reports (b : Buckets K) (l : List Int) : Prop :=
  (l = [] → b.minUsed = -1 ∧ b.maxUsed = -1) ∧
  (l ≠ [] → b.minUsed ∈ l ∧ b.maxUsed ∈ l ∧ ∀ i ∈ l, b.minUsed ≤ i ∧ i ≤ b.maxUsed)

theorem bucketRun_append (os os' : List (BucketOp K)) : ∀ (b : Buckets K),
    bucketRun b (os ++ os') = bucketRun b os >>= fun b => bucketRun b os' := by
  induction os with
  | nil => intro b; rfl
  | cons o os ih =>
    intro b
    show (bucketOp b o >>= fun b => bucketRun b (os ++ os')) = ((bucketOp b o >>= fun b => bucketRun b os) >>= _)
    cases bucketOp b o with
    | error e => rfl
    | ok b1 => exact ih b1

theorem reports_step {b b' : Buckets K} {num : Int} (hn : 0 < num) (hb : b.num = num) (hv : Valid b) {os : List (BucketOp K)}
    (h : Reports b (written num os)) {o : BucketOp K} (ho : bucketOp b o = .ok b') : Reports b' (written num (os ++ [o])) := by
  have hlow : ∀ i ∈ written num os, 0 ≤ i ∧ i < num := by
    intro i hi
    obtain ⟨o, -, e⟩ := List.mem_filterMap.mp hi
    cases o with
    | engine w v =>
      have : nearest num w = i := Option.some.inj e
      unfold nearest at this
      omega
    | set _ _ => cases e
    | reset => cases e
  cases o with
  | set i v =>
    have e : written num (os ++ [.set i v]) = written num os := by
      unfold written
      rw [List.reverse_append, List.reverse_singleton, List.singleton_append, List.takeWhile_cons_of_pos rfl,
        List.filterMap_cons_none rfl]
    have m : b'.minUsed = b.minUsed ∧ b'.maxUsed = b.maxUsed := by
      unfold bucketOp setBucketState at ho
      dsimp only at ho
      by_cases hc : b.num > i
      · rw [if_pos hc] at ho
        cases hw : writeBucket b.mem i v with
        | error f => simp only [hw, bind, Except.bind, reduceCtorEq] at ho
        | ok mem =>
          simp only [hw, bind, Except.bind, pure, Except.pure] at ho
          cases ho
          exact ⟨rfl, rfl⟩
      · rw [if_neg hc] at ho
        cases ho
        exact ⟨rfl, rfl⟩
    rw [e]
    unfold Reports at h ⊢
    rw [m.1, m.2]
    exact h
  | engine want v =>
    have e : written num (os ++ [.engine want v]) = nearest num want :: written num os := by
      unfold written
      rw [List.reverse_append, List.reverse_singleton, List.singleton_append, List.takeWhile_cons_of_pos rfl]
      rfl
    have hi : (if want > b.num - 1 then b.num - 1 else if want < 0 then 0 else want) = nearest num want := by
      unfold nearest; rw [hb]; split_ifs <;> omega
    have h0 : 0 ≤ nearest num want ∧ nearest num want < num := by unfold nearest; omega
    have m : b'.minUsed = (if b.minUsed = -1 ∨ b.minUsed > nearest num want then nearest num want else b.minUsed) ∧
        b'.maxUsed = (if b.maxUsed < nearest num want then nearest num want else b.maxUsed) := by
      unfold bucketOp fetchBucket at ho
      dsimp only at ho
      rw [hi] at ho
      rw [if_neg (by omega)] at ho
      generalize nearest num want = n at ho
      by_cases c1 : b.minUsed = -1 ∨ b.minUsed > n <;> by_cases c2 : b.maxUsed < n <;>
        simp only [c1, c2, if_true, if_false] at ho ⊢ <;>
        (obtain ⟨mem, -, hr⟩ := Blend.except_bind_ok ho; cases hr; exact ⟨rfl, rfl⟩)
    rw [e]
    refine ⟨fun hc => (by cases hc), fun _ => ?_⟩
    by_cases hl : written num os = []
    · obtain ⟨h1, h2⟩ := h.1 hl
      rw [hl, m.1, m.2, h1, h2]
      simp
      omega
    · obtain ⟨h1, h2, h3⟩ := h.2 hl
      have l1 := hlow _ h1
      have l2 := hlow _ h2
      refine ⟨?_, ?_, ?_⟩
      · rw [m.1]
        split_ifs
        · exact List.mem_cons_self
        · exact List.mem_cons_of_mem _ h1
      · rw [m.2]
        split_ifs
        · exact List.mem_cons_self
        · exact List.mem_cons_of_mem _ h2
      · have k0 := h3 _ h1
        intro i hi
        rw [m.1, m.2]
        rcases List.mem_cons.mp hi with rfl | hi
        · split_ifs <;> omega
        · have k := h3 i hi
          split_ifs <;> omega
  | reset =>
    have e : written num (os ++ [.reset]) = [] := by simp [written, BucketOp.isReset]
    rw [e]
    refine ⟨fun _ => ?_, fun hc => absurd rfl hc⟩
    unfold bucketOp resetBuckets at ho
    dsimp only at ho
    have hm : b.mem.isEmpty = false := by
      have := hv.len
      cases hmm : b.mem with
      | nil => rw [hmm] at this; simp at this; omega
      | cons _ _ => rfl
    rw [hm] at ho
    simp only [Bool.false_eq_true, if_false] at ho
    by_cases hc : b.minUsed ≠ -1
    · rw [if_pos hc] at ho
      obtain ⟨mem, -, hr⟩ := Blend.except_bind_ok ho
      cases hr
      exact ⟨rfl, rfl⟩
    · rw [if_neg hc] at ho
      cases ho
      refine ⟨not_not.mp hc, ?_⟩
      rcases hv.used with u | u | u
      · omega
      · exact u.2
      · omega

/-- **C84** For a brush with buckets the range reported is that of the buckets the engine has used since the last reset, and -1
if there are none: both ends were used, and every one used lies between them. -/
theorem used_range_is_reported_partial (fresh : List K) (num : Int) (junk : Int × Int) (hn : 0 < num)
    (hf : (fresh.length : Int) = 9 * num) (os : List (BucketOp K)) (hos : ∀ o ∈ os, o.indexOk) :
    ∃ b, bucketRun (newBuckets fresh num junk) (.reset :: os) = .ok b ∧ Reports b (written num os) := by
  induction os using List.reverseRecOn with
  | nil =>
    have hv := new_valid fresh num junk (fun _ => hf)
    obtain ⟨mem, er, -, -⟩ := reset_buckets_ok hv (by unfold newBuckets; rw [if_pos hn]; exact hn)
      (by unfold newBuckets; rw [if_pos hn])
    refine ⟨{ newBuckets fresh num junk with mem := mem, minUsed := -1, maxUsed := -1 }, ?_, fun _ => ⟨rfl, rfl⟩,
      fun hc => absurd rfl hc⟩
    unfold bucketRun bucketOp
    dsimp only
    rw [er]
    rfl
  | append_singleton os o ih =>
    obtain ⟨b, h1, h2⟩ := ih fun o ho => hos o (List.mem_append_left _ ho)
    have hv := new_valid fresh num junk (fun _ => hf)
    obtain ⟨b0, g1, g2, g3⟩ := buckets_stay_in_bounds (.reset :: os) _ hv (by
      intro o ho
      rcases List.mem_cons.mp ho with rfl | ho
      · trivial
      · exact hos o (List.mem_append_left _ ho))
    rw [h1] at g1
    cases g1
    have hnum : (newBuckets fresh num junk).num = num := by unfold newBuckets; rw [if_pos hn]
    obtain ⟨b1, k1, k2, k3⟩ := buckets_stay_in_bounds [o] b g2 (fun o' ho' => by
      rw [List.mem_singleton.mp ho']; exact hos o (by simp))
    have k1' : bucketOp b o = .ok b1 := by
      cases hq : bucketOp b o with
      | error f => simp only [bucketRun, hq, bind, Except.bind, reduceCtorEq] at k1
      | ok b2 => simpa only [bucketRun, hq, bind, Except.bind] using k1
    refine ⟨b1, ?_, reports_step hn (g3.trans hnum) g2 h2 k1'⟩
    rw [← List.cons_append, bucketRun_append, h1]
    exact k1

/-- **C84 fails** for buckets written through `mypaint_brush_set_smudge_bucket_state`: they are not reported. (C39: for the same
reason a reset does not clear them, `reset_keeps_api_bucket`. Without buckets the range is not even initialised,
`used_range_uninitialised`.) -/
theorem api_buckets_are_not_reported (fresh : List K) (num : Int) (junk : Int × Int)
    (hf : (fresh.length : Int) = 9 * num) {i : Nat} (hi : (i : Int) < num) (v : Bucket K) :
    ∃ b, bucketRun (newBuckets fresh num junk) [.reset, .set i v] = .ok b ∧ b.minUsed = -1 ∧ b.maxUsed = -1 := by
  obtain ⟨b, h1, h2, -⟩ := used_range_is_reported_partial fresh num junk (by omega) hf [.set i v] (by
    intro o ho
    rw [List.mem_singleton.mp ho]
    show (0 : Int) ≤ i
    omega)
  exact ⟨b, h1, h2 rfl⟩

end

/-- The engine writes buckets 2, 1 and, asked for bucket 9, the last one; before that a reset. -/
example : (match bucketRun (newBuckets (List.replicate 45 (0 : ℚ)) 5 (0, 0))
      [.reset, .engine 0 red, .reset, .engine 2 red, .set 0 green, .engine 1 green, .engine 9 red] with
    | .error _ => none
    | .ok b => some (b.minUsed, b.maxUsed)) = some (1, 4) := by decide +kernel

example : written 5 [.engine 0 red, .reset, .engine 2 red, .set 0 green, .engine 1 green, .engine 9 red] = [4, 1, 2] := by
  decide +kernel

end Verif.Engine
