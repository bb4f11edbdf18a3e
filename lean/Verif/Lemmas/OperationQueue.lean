import Verif.Lemmas.TileMap
import Verif.Spec.OperationQueue
import Mathlib.Data.List.Perm.Subperm
import Mathlib.Data.List.Nodup

/-! Helper lemmas for the operation queue. -/

namespace Verif.OpQueue

open Spec.TileMap (ValidSize InBox)
open Spec.OpQueue (St)
open TileMap (at' WF off)

variable {β : Type}

/-! ### `remove_duplicate_tiles` -/

theorem dupScan_eq (arr : List TileIndex) (t : TileIndex) (n : Nat) :
    ∀ (fuel j : Nat), j ≤ n → n - j ≤ fuel →
      (dupScan arr t n fuel j = n ↔ ∀ k, j ≤ k → k < n → arr[k]? ≠ some t)
  | 0, j, hj, hf => by
    have : j = n := by omega
    subst this
    simp only [dupScan, true_iff]
    intro k h1 h2; omega
  | fuel + 1, j, hj, hf => by
    unfold dupScan
    by_cases hlt : j < n
    · rw [if_pos hlt]
      by_cases he : arr[j]? = some t
      · rw [if_pos he]
        constructor
        · intro h; omega
        · intro h; exact absurd he (h j (Nat.le_refl _) hlt)
      · rw [if_neg he, dupScan_eq arr t n fuel (j + 1) (by omega) (by omega)]
        constructor
        · intro h k h1 h2
          by_cases hk : k = j
          · subst hk; exact he
          · exact h k (by omega) h2
        · intro h k h1 h2; exact h k (by omega) h2
    · rw [if_neg hlt]
      constructor
      · intro _ k h1 h2; omega
      · intro _; omega

theorem dupScan_eq' (arr : List TileIndex) (t : TileIndex) (n : Nat) (hn : n ≤ arr.length) :
    dupScan arr t n n 0 = n ↔ t ∉ arr.take n := by
  rw [dupScan_eq arr t n n 0 (by omega) (by omega)]
  rw [List.mem_take_iff_getElem]
  constructor
  · rintro h ⟨k, hk, he⟩
    exact h k (by omega) (by omega) (by rw [List.getElem?_eq_getElem (by omega), he])
  · intro h k _ hk he
    apply h
    refine ⟨k, by omega, ?_⟩
    rw [List.getElem?_eq_getElem (by omega)] at he
    exact Option.some.inj he

theorem dedupLoop_ok : ∀ (todo : Nat) (arr : List TileIndex) (i n : Nat),
    todo + i = arr.length → n ≤ i → (arr.take n).Nodup →
    ∃ arr' n', dedupLoop todo arr i n = .ok (arr', n') ∧ n' ≤ arr'.length ∧
      arr'.length = arr.length ∧ (arr'.take n').Nodup ∧
      ∀ t, t ∈ arr'.take n' ↔ (t ∈ arr.take n ∨ t ∈ arr.drop i)
  | 0, arr, i, n, hlen, hn, hnd => by
    refine ⟨arr, n, rfl, by omega, rfl, hnd, ?_⟩
    intro t
    have : arr.drop i = [] := List.drop_eq_nil_of_le (by omega)
    simp [this]
  | todo + 1, arr, i, n, hlen, hn, hnd => by
    have hi : i < arr.length := by omega
    have hget : arr[i]? = some arr[i] := List.getElem?_eq_getElem hi
    have hdrop : arr.drop i = arr[i] :: arr.drop (i + 1) := List.drop_eq_getElem_cons hi
    unfold dedupLoop
    simp only [hget]
    by_cases hdup : dupScan arr arr[i] n n 0 = n
    · have hni := (dupScan_eq' arr arr[i] n (by omega)).mp hdup
      rw [if_pos hdup, if_pos (by omega)]
      have htake : (arr.set n arr[i]).take (n + 1) = arr.take n ++ [arr[i]] := by
        rw [List.take_add_one]
        rw [List.take_set_of_le (Nat.le_refl _)]
        simp [List.getElem?_set, show n < arr.length by omega]
      have hdrop' : (arr.set n arr[i]).drop (i + 1) = arr.drop (i + 1) := by
        rw [List.drop_set_of_lt (by omega)]
      obtain ⟨arr', n', he, hl, hll, hnd', hmem⟩ := dedupLoop_ok todo (arr.set n arr[i]) (i + 1)
        (n + 1) (by simp; omega) (by omega) (by
          rw [htake, List.nodup_append]
          refine ⟨hnd, by simp, ?_⟩
          intro x hx y hy hxy
          simp at hy; subst hy; subst hxy; exact hni hx)
      refine ⟨arr', n', he, hl, by simpa using hll, hnd', ?_⟩
      intro t
      rw [hmem t, htake, hdrop', hdrop]
      simp only [List.mem_append, List.mem_cons, List.not_mem_nil, or_false, or_assoc]
    · have hmi : arr[i] ∈ arr.take n := by
        by_contra hc
        exact hdup ((dupScan_eq' arr arr[i] n (by omega)).mpr hc)
      rw [if_neg hdup]
      obtain ⟨arr', n', he, hl, hll, hnd', hmem⟩ := dedupLoop_ok todo arr (i + 1) n
        (by omega) (by omega) hnd
      refine ⟨arr', n', he, hl, hll, hnd', ?_⟩
      intro t
      rw [hmem t, hdrop]
      simp only [List.mem_cons]
      constructor
      · rintro (h | h)
        · exact Or.inl h
        · exact Or.inr (Or.inr h)
      · rintro (h | h | h)
        · exact Or.inl h
        · subst h; exact Or.inl hmi
        · exact Or.inr h

/-- `remove_duplicate_tiles` never faults, keeps every element and leaves no duplicate. -/
theorem removeDuplicateTiles_ok (arr : List TileIndex) :
    ∃ l, removeDuplicateTiles arr = .ok l ∧ l.Nodup ∧ (∀ t, t ∈ l ↔ t ∈ arr) ∧
      l.length ≤ arr.length := by
  unfold removeDuplicateTiles
  by_cases h : arr.length < 2
  · rw [if_pos h]
    refine ⟨arr, rfl, ?_, fun _ => Iff.rfl, Nat.le_refl _⟩
    match arr, h with
    | [], _ => simp
    | [a], _ => simp
  · rw [if_neg h]
    obtain ⟨arr', n', he, hl, hll, hnd, hmem⟩ := dedupLoop_ok (arr.length - 1) arr 1 1
      (by omega) (by omega) (by
        match arr, h with
        | [a], _ => simp
        | a :: b :: l, _ => simp)
    refine ⟨arr'.take n', by rw [he]; rfl, hnd, ?_, by simp; omega⟩
    intro t
    rw [hmem t]
    match arr, h with
    | a :: l, _ => simp

/-! ### Counting tiles -/

theorem cRange_length (lo hi : Int) : (cRange lo hi).length = (hi - lo).toNat := by simp [cRange]

theorem cRange_nodup (lo hi : Int) : (cRange lo hi).Nodup := by
  unfold cRange
  apply List.Nodup.map _ List.nodup_range
  intro a b h; simpa using h

theorem allIndices_length {s : Int} (hs : ValidSize s) :
    ((TileMap.allIndices s).length : Int) = 4 * s * s := by
  obtain ⟨h1, _⟩ := hs
  simp only [TileMap.allIndices, List.length_flatMap, List.length_map, cRange_length]
  rw [List.map_const', List.sum_replicate_nat, cRange_length]
  have : (((s - -s).toNat : Nat) : Int) = 2 * s := by omega
  simp only [Nat.cast_mul, this]
  ring

theorem allIndices_nodup (s : Int) : (TileMap.allIndices s).Nodup := by
  unfold TileMap.allIndices
  rw [List.nodup_flatMap]
  constructor
  · intro y _
    apply List.Nodup.map _ (cRange_nodup _ _)
    intro a b h; simpa using h
  · apply List.Pairwise.imp _ (cRange_nodup (-s) s)
    intro a b hab
    simp only [Function.onFun, List.disjoint_left, List.mem_map]
    rintro t ⟨x, _, rfl⟩ ⟨x', _, h⟩
    simp at h
    exact hab h.2.symm

theorem nodup_length_le {s : Int} (hs : ValidSize s) {l : List TileIndex} (hn : l.Nodup)
    (hin : ∀ t ∈ l, InBox s t) : (l.length : Int) ≤ 4 * s * s := by
  have hsub : l ⊆ TileMap.allIndices s := fun t ht => TileMap.mem_allIndices.mpr (hin t ht)
  have := (List.subperm_of_subset hn hsub).length_le
  have := allIndices_length hs
  omega

theorem nodup_full {s : Int} (hs : ValidSize s) {l : List TileIndex} (hn : l.Nodup)
    (hin : ∀ t ∈ l, InBox s t) (hfull : 4 * s * s ≤ (l.length : Int)) {t : TileIndex}
    (ht : InBox s t) : t ∈ l := by
  have hsub : l ⊆ TileMap.allIndices s := fun t ht => TileMap.mem_allIndices.mpr (hin t ht)
  have hlen := allIndices_length hs
  have hp := (List.subperm_of_subset hn hsub).perm_of_length_le (by omega)
  exact hp.symm.subset (TileMap.mem_allIndices.mpr ht)

theorem full_length {s : Int} (hs : ValidSize s) {l : List TileIndex}
    (hall : ∀ t, InBox s t → t ∈ l) : 4 * s * s ≤ (l.length : Int) := by
  have hsub : TileMap.allIndices s ⊆ l := fun t ht => hall t (TileMap.mem_allIndices.mp ht)
  have := (List.subperm_of_subset (allIndices_nodup s) hsub).length_le
  have := allIndices_length hs
  omega

/-! ### Reachable sizes -/

open Spec.OpQueue (farthest)

/-- Map sizes that occur. -/
def SizeOk : Build → Int → Prop
  | .normal, s => ∃ k : Nat, k ≤ 11 ∧ s = 10 * 2 ^ k
  | .heavyDebug, s => 1 ≤ s ∧ s ≤ 23170

theorem sizeOk_le {b : Build} {s : Int} (h : SizeOk b s) : 1 ≤ s ∧ s ≤ farthest b := by
  cases b with
  | normal =>
    obtain ⟨k, hk, rfl⟩ := h
    have h1 : (2 : Int) ^ k ≤ 2 ^ 11 := pow_le_pow_right₀ (by norm_num) hk
    have h2 : (1 : Int) ≤ 2 ^ k := one_le_pow₀ (by norm_num)
    constructor
    · linarith
    · simp only [farthest]; norm_num at h1; linarith
  | heavyDebug => exact h

theorem farthest_le (b : Build) : farthest b ≤ 23170 := by cases b <;> simp [farthest]

theorem sizeOk_valid {b : Build} {s : Int} (h : SizeOk b s) : ValidSize s :=
  ⟨(sizeOk_le h).1, (sizeOk_le h).2.trans (farthest_le b)⟩

theorem sizeOk_init (b : Build) : SizeOk b b.initSize := by
  cases b
  · exact ⟨0, by omega, by simp [Build.initSize]⟩
  · exact ⟨by simp [Build.initSize], by simp [Build.initSize]⟩

/-- From a reachable size the next one is either reachable and larger or overflows, the latter only
from the maximal size. -/
theorem sizeOk_grow {b : Build} {s : Int} (h : SizeOk b s) :
    (SizeOk b (b.growSize s) ∧ s < b.growSize s) ∨
    (s = farthest b ∧ 23170 < b.growSize s ∧ b.growSize s ≤ intMax) := by
  cases b with
  | normal =>
    obtain ⟨k, hk, rfl⟩ := h
    have h2 : (1 : Int) ≤ 2 ^ k := one_le_pow₀ (by norm_num)
    by_cases hk' : k = 11
    · right; subst hk'; simp [farthest, Build.growSize, intMax]
    · left
      refine ⟨⟨k + 1, by omega, by simp [Build.growSize]; ring⟩, ?_⟩
      simp only [Build.growSize]; linarith
  | heavyDebug =>
    obtain ⟨h1, h2⟩ := h
    by_cases hs : s = 23170
    · right; subst hs; simp [farthest, Build.growSize, intMax]
    · left; simp only [Build.growSize, SizeOk]; omega

/-! ### Refinement relation -/

/-- The queue `q` represents the abstract state `s`. -/
structure Rel (b : Build) (q : OpQueue β) (s : St β) : Prop where
  size : SizeOk b q.tileMap.size
  wf : WF q.tileMap
  inside : ∀ i, InBox q.tileMap.size i → (q.tileMap.at' i).getD [] = s.pend i
  outside : ∀ i, ¬ InBox q.tileMap.size i → s.pend i = []
  dirtyIn : ∀ i ∈ q.dirty, InBox q.tileMap.size i
  dirtyMem : ∀ i, i ∈ q.dirty ↔ s.marked i
  cap : q.dirtyCap = 4 * q.tileMap.size * q.tileMap.size
  dirtyLen : (q.dirty.length : Int) ≤ 4 * q.tileMap.size * q.tileMap.size

theorem new_rel (b : Build) : ∃ q : OpQueue β, new b = .ok q ∧ Rel b q Spec.OpQueue.init ∧
    q.tileMap.size = b.initSize := by
  obtain ⟨m, hm, hwf, hsz, hat⟩ := TileMap.new_ok (α := List β) (sizeOk_valid (sizeOk_init b))
  refine ⟨⟨m, [], 4 * b.initSize * b.initSize⟩, ?_, ?_, hsz⟩
  · simp only [new, hm, TileMap.mapSize_ok (sizeOk_valid (sizeOk_init b)), bind, Except.bind]; rfl
  · have hs := sizeOk_init b
    refine ⟨by simp only [hsz]; exact hs, hwf, ?_, ?_, by simp, ?_, by simp only [hsz], ?_⟩
    · intro i _; simp [hat, Spec.OpQueue.init]
    · intro i _; rfl
    · intro i; simp [Spec.OpQueue.init]
    · have := (sizeOk_le hs).1
      simp only [hsz, List.length_nil]
      have : 0 ≤ 4 * b.initSize * b.initSize := by nlinarith
      simpa using this

theorem resize_rel {b : Build} {q : OpQueue β} {s : St β} (h : Rel b q s) {ns : Int}
    (hns : SizeOk b ns) (hle : q.tileMap.size ≤ ns) :
    ∃ q', q.resize ns = .ok q' ∧ Rel b q' s ∧ q'.tileMap.size = ns ∧ q'.dirty = q.dirty := by
  have hv := sizeOk_valid hns
  obtain ⟨n, hn, hnwf, hnsz, hnat⟩ := TileMap.new_ok (α := List β) hv
  obtain ⟨m', hm', hwf', hsz', hold, hnew⟩ := TileMap.copyTo_ok h.wf hnwf (by rw [hnsz]; exact hle)
  have hs' : m'.size = ns := by rw [hsz', hnsz]
  have hsq : 4 * q.tileMap.size * q.tileMap.size ≤ 4 * ns * ns := by
    have := (sizeOk_le h.size).1
    nlinarith
  have hdl := h.dirtyLen
  refine ⟨⟨m', q.dirty, 4 * ns * ns⟩, ?_, ?_, hs', rfl⟩
  · simp only [resize, hn, hm', TileMap.mapSize_ok hv, bind, Except.bind]
    rw [if_neg (by omega)]; rfl
  · refine ⟨by simp only [hs']; exact hns, hwf', ?_, ?_, ?_, h.dirtyMem, by simp only [hs'], ?_⟩
    · intro i hi
      simp only [hs'] at hi
      by_cases hio : InBox q.tileMap.size i
      · simp only [hold i hio, h.inside i hio]
      · simp only [hnew i (by rw [hnsz]; exact hi) hio, hnat, h.outside i hio, Option.getD_none]
    · intro i hi
      simp only [hs'] at hi
      exact h.outside i (fun hio => hi (TileMap.inBox_mono hle hio))
    · intro i hi
      simp only [hs']
      exact TileMap.inBox_mono hle (h.dirtyIn i hi)
    · simp only [hs']; omega

/-- The growth loop: it ends in a map that contains the tile, or overflows; the latter exactly when
no reachable size contains the tile. -/
theorem growLoop_spec {b : Build} {idx : TileIndex} {s : St β} :
    ∀ (fuel : Nat) (q : OpQueue β), Rel b q s → farthest b - q.tileMap.size < fuel →
      (InBox (farthest b) idx →
        ∃ q', growLoop b idx fuel q = .ok q' ∧ Rel b q' s ∧ InBox q'.tileMap.size idx ∧
          q'.dirty = q.dirty ∧ (InBox q.tileMap.size idx → q' = q) ∧
          q.tileMap.size ≤ q'.tileMap.size) ∧
      (¬ InBox (farthest b) idx → growLoop b idx fuel q = .error .intOverflow)
  | 0, q, h, hf => by
    have := (sizeOk_le h.size).2
    simp at hf; omega
  | fuel + 1, q, h, hf => by
    have hle := (sizeOk_le h.size).2
    unfold growLoop
    by_cases hc : q.tileMap.contains idx
    · have hin := (TileMap.contains_iff _ _).mp hc
      rw [if_pos hc]
      exact ⟨fun _ => ⟨q, rfl, h, hin, rfl, fun _ => rfl, le_refl _⟩,
        fun hn => absurd (TileMap.inBox_mono hle hin) hn⟩
    · have hnin : ¬ InBox q.tileMap.size idx := fun hi => hc ((TileMap.contains_iff _ _).mpr hi)
      rw [if_neg hc]
      rcases sizeOk_grow h.size with ⟨hok, hlt⟩ | ⟨heq, hbig, hmax⟩
      · have hchk : chk (b.growSize q.tileMap.size) = .ok (b.growSize q.tileMap.size) := by
          have h1 := sizeOk_le hok
          have h2 := farthest_le b
          exact chk_ok (by unfold intMin; omega) (by unfold intMax; omega)
        obtain ⟨q1, hq1, hrel1, hsz1, hd1⟩ := resize_rel h hok (by omega)
        obtain ⟨ih1, ih2⟩ := growLoop_spec (idx := idx) fuel q1 hrel1 (by omega)
        simp only [hchk, hq1, bind, Except.bind]
        refine ⟨fun hbox => ?_, fun hbox => ih2 hbox⟩
        obtain ⟨q', e1, e2, e3, e4, e5, e6⟩ := ih1 hbox
        exact ⟨q', e1, e2, e3, by rw [e4, hd1], fun hi => absurd hi hnin, by omega⟩
      · have hchk : chk (b.growSize q.tileMap.size) = .ok (b.growSize q.tileMap.size) :=
          chk_ok (by unfold intMin; omega) hmax
        constructor
        · intro hbox; rw [← heq] at hbox; exact absurd hbox hnin
        · intro _
          simp only [hchk, resize, TileMap.new, TileMap.mapSize_err hbig, bind, Except.bind]

theorem growFuel_ok {b : Build} {q : OpQueue β} {s : St β} (h : Rel b q s) :
    farthest b - q.tileMap.size < (growFuel : Nat) := by
  have h1 := sizeOk_le h.size
  have h2 := farthest_le b
  unfold growFuel; push_cast; omega

/-- Storing the new operation of a tile. -/
theorem store_rel {b : Build} {q : OpQueue β} {s : St β} (h : Rel b q s) {idx : TileIndex}
    (hi : InBox q.tileMap.size idx) (v : Option (List β)) :
    ∃ m, q.tileMap.put idx v = .ok m ∧
      Rel b { q with tileMap := m } { s with pend := Spec.OpQueue.setPend s idx (v.getD []) } ∧
      m.size = q.tileMap.size := by
  obtain ⟨hwf, hsz, hat, hoth⟩ := TileMap.put_wf h.wf hi (TileMap.put_ok h.wf hi v)
  refine ⟨_, TileMap.put_ok h.wf hi v, ?_, hsz⟩
  refine ⟨h.size, hwf, ?_, ?_, h.dirtyIn, h.dirtyMem, h.cap, h.dirtyLen⟩
  · intro j hj
    by_cases hji : j = idx
    · subst hji; simp only [hat, Spec.OpQueue.setPend, if_true]
    · simp only [hoth j hj hji, Spec.OpQueue.setPend, if_neg hji]; exact h.inside j hj
  · intro j hj
    have hji : j ≠ idx := fun he => hj (he ▸ hi)
    simp only [Spec.OpQueue.setPend, if_neg hji]; exact h.outside j hj

/-- Exact behaviour of `operation_queue_add`. -/
theorem add_spec {b : Build} {q : OpQueue β} {s : St β} (h : Rel b q s) (idx : TileIndex) (op : β) :
    (¬ InBox (farthest b) idx ∧ q.add b idx op = .error .intOverflow) ∨
    (InBox q.tileMap.size idx ∧ s.pend idx = [] ∧ (∀ t, InBox q.tileMap.size t → s.marked t) ∧
      q.add b idx op = .error .assertFail) ∨
    (InBox (farthest b) idx ∧
      ¬ (InBox q.tileMap.size idx ∧ s.pend idx = [] ∧
          ∀ t, InBox q.tileMap.size t → s.marked t) ∧
      ∃ q', q.add b idx op = .ok q' ∧ Rel b q' (Spec.OpQueue.next s (.add idx op)) ∧
        q.tileMap.size ≤ q'.tileMap.size ∧
        (InBox q.tileMap.size idx → q'.tileMap.size = q.tileMap.size)) := by
  obtain ⟨hg1, hg2⟩ := growLoop_spec (idx := idx) growFuel q h (growFuel_ok h)
  by_cases hbox : InBox (farthest b) idx
  swap
  · left
    refine ⟨hbox, ?_⟩
    simp only [add, hg2 hbox, bind, Except.bind]
  obtain ⟨q1, e1, hrel, hin, hd, hsame, hszle⟩ := hg1 hbox
  have hv := sizeOk_valid hrel.size
  have hms := TileMap.mapSize_ok hv
  right
  by_cases hp : s.pend idx = []
  swap
  · right
    refine ⟨hbox, fun hc => hp hc.2.1, ?_⟩
    have hget := TileMap.get_ok hrel.wf hin
    have hslot := hrel.inside idx hin
    have hne : (q1.tileMap.at' idx).getD [] ≠ [] := by rw [hslot]; exact hp
    obtain ⟨m, hm, hrel', hmsz⟩ := store_rel hrel hin (some ((q1.tileMap.at' idx).getD [] ++ [op]))
    refine ⟨{ q1 with tileMap := m }, ?_, ?_, ?_, ?_⟩
    · simp only [add, e1, hget, bind, Except.bind, if_neg hne, pure, Except.pure, hm]
    · have : Spec.OpQueue.next s (.add idx op)
          = { s with pend :=
                Spec.OpQueue.setPend s idx ((some ((q1.tileMap.at' idx).getD [] ++ [op])).getD []) } := by
        simp [Spec.OpQueue.next, hp, hslot]
      rw [this]; exact hrel'
    · simp only [hmsz]; exact hszle
    · intro hi; simp only [hmsz]; rw [hsame hi]
  have hget := TileMap.get_ok hrel.wf hin
  have hslot := hrel.inside idx hin
  have hnil : (q1.tileMap.at' idx).getD [] = [] := by rw [hslot]; exact hp
  -- the list after optional pruning
  obtain ⟨d, hdd, hdmem, hdlen, hdfull⟩ :
      ∃ d, (if ¬ (q1.dirty.length : Int) < 4 * q1.tileMap.size * q1.tileMap.size
              then removeDuplicateTiles q1.dirty else pure q1.dirty) = Except.ok d ∧
        (∀ t, t ∈ d ↔ t ∈ q1.dirty) ∧
        (d.length : Int) ≤ 4 * q1.tileMap.size * q1.tileMap.size ∧
        (4 * q1.tileMap.size * q1.tileMap.size ≤ (d.length : Int) ↔
          ∀ t, InBox q1.tileMap.size t → t ∈ q1.dirty) := by
    by_cases hlt : (q1.dirty.length : Int) < 4 * q1.tileMap.size * q1.tileMap.size
    · refine ⟨q1.dirty, by rw [if_neg (by omega)]; rfl, fun _ => Iff.rfl, by omega, ?_⟩
      constructor
      · intro hc; omega
      · intro hall; exact full_length hv hall
    · obtain ⟨l, hl, hnd, hmem, hlen⟩ := removeDuplicateTiles_ok q1.dirty
      have hlin : ∀ t ∈ l, InBox q1.tileMap.size t := fun t ht => hrel.dirtyIn t ((hmem t).mp ht)
      refine ⟨l, by rw [if_pos hlt, hl], hmem, nodup_length_le hv hnd hlin, ?_⟩
      constructor
      · intro hc t ht; exact (hmem t).mp (nodup_full hv hnd hlin hc ht)
      · intro hall; exact full_length hv (fun t ht => (hmem t).mpr (hall t ht))
  by_cases hfull : 4 * q1.tileMap.size * q1.tileMap.size ≤ (d.length : Int)
  · left
    have hall := hdfull.mp hfull
    have hidx : InBox q.tileMap.size idx := by
      have := hall idx hin
      rw [hd] at this
      exact h.dirtyIn idx this
    have hqq := hsame hidx
    subst hqq
    refine ⟨hidx, hp, fun t ht => (hrel.dirtyMem t).mp (hall t ht), ?_⟩
    simp only [add, e1, hget, bind, Except.bind, hnil, if_true, hms]
    rw [hdd]
    simp only [if_pos (show ¬ (d.length : Int) < 4 * q1.tileMap.size * q1.tileMap.size by omega)]
    rfl
  · right
    refine ⟨hbox, ?_, ?_⟩
    · rintro ⟨hi, _, hall⟩
      have hqq := hsame hi
      subst hqq
      exact hfull (hdfull.mpr (fun t ht => (hrel.dirtyMem t).mpr (hall t ht)))
    · have hrel2 : Rel b { q1 with dirty := d ++ [idx] }
          { s with marked := fun u => s.marked u ∨ (u = idx ∧ s.pend idx = []) } := by
        refine ⟨hrel.size, hrel.wf, hrel.inside, hrel.outside, ?_, ?_, hrel.cap, ?_⟩
        · intro t ht
          simp only [List.mem_append, List.mem_singleton] at ht
          rcases ht with ht | rfl
          · exact hrel.dirtyIn t ((hdmem t).mp ht)
          · exact hin
        · intro t
          simp only [List.mem_append, List.mem_singleton, hdmem t, hrel.dirtyMem t, hp, and_true]
        · simp only [List.length_append, List.length_singleton]; push_cast; omega
      obtain ⟨m, hm, hrel', hmsz⟩ := store_rel hrel2 hin (some ([] ++ [op]))
      refine ⟨⟨m, d ++ [idx], q1.dirtyCap⟩, ?_, ?_, ?_, ?_⟩
      · simp only [add, e1, hget, bind, Except.bind, hnil, if_true, hms]
        rw [hdd]
        simp only [if_neg (show ¬ ¬ (d.length : Int) < 4 * q1.tileMap.size * q1.tileMap.size by omega),
          hrel.cap, pure, Except.pure]
        simp only at hm
        rw [hm]
      · have : Spec.OpQueue.next s (.add idx op)
            = { pend := Spec.OpQueue.setPend s idx ((some ([] ++ [op])).getD []),
                marked := fun u => s.marked u ∨ (u = idx ∧ s.pend idx = []) } := by
          simp [Spec.OpQueue.next, hp]
        rw [this]; exact hrel'
      · simp only [hmsz]; exact hszle
      · intro hi; simp only [hmsz]; rw [hsame hi]

theorem setPend_same (s : St β) (t : TileIndex) :
    Spec.OpQueue.setPend s t (s.pend t) = s.pend := by
  funext u; simp only [Spec.OpQueue.setPend]; split
  · next h => rw [h]
  · rfl

theorem pop_spec {b : Build} {q : OpQueue β} {s : St β} (h : Rel b q s) (idx : TileIndex) :
    ∃ q', q.pop idx = .ok ((s.pend idx).head?, q') ∧ Rel b q' (Spec.OpQueue.next s (.pop idx)) ∧
      q'.tileMap.size = q.tileMap.size := by
  unfold pop
  by_cases hc : q.tileMap.contains idx
  swap
  · have hni : ¬ InBox q.tileMap.size idx := fun hi => hc ((TileMap.contains_iff _ _).mpr hi)
    have hp := h.outside idx hni
    refine ⟨q, by rw [if_pos hc, hp]; rfl, ?_, rfl⟩
    have : Spec.OpQueue.next s (.pop idx) = s := by
      have := setPend_same s idx
      rw [hp] at this
      simp [Spec.OpQueue.next, hp, this]
    rw [this]; exact h
  have hin := (TileMap.contains_iff _ _).mp hc
  have hget := TileMap.get_ok h.wf hin
  have hslot := h.inside idx hin
  rw [if_neg (by simpa using hc)]
  simp only [hget, bind, Except.bind]
  cases hat : q.tileMap.at' idx with
  | none =>
    rw [hat] at hslot
    have hp : s.pend idx = [] := hslot.symm
    refine ⟨q, by rw [hp]; rfl, ?_, rfl⟩
    have : Spec.OpQueue.next s (.pop idx) = s := by
      have := setPend_same s idx
      rw [hp] at this
      simp [Spec.OpQueue.next, hp, this]
    rw [this]; exact h
  | some l =>
    rw [hat] at hslot
    cases l with
    | nil =>
      have hp : s.pend idx = [] := hslot.symm
      obtain ⟨m, hm, hrel', hmsz⟩ := store_rel h hin none
      refine ⟨{ q with tileMap := m }, by simp only [hm, hp]; rfl, ?_, hmsz⟩
      simp only [Spec.OpQueue.next, hp, List.tail_nil]; exact hrel'
    | cons op rest =>
      have hp : s.pend idx = op :: rest := hslot.symm
      obtain ⟨m, hm, hrel', hmsz⟩ := store_rel h hin (some rest)
      refine ⟨{ q with tileMap := m }, by simp only [hm, hp]; rfl, ?_, hmsz⟩
      simp only [Spec.OpQueue.next, hp, List.tail_cons]; exact hrel'

theorem peekFirst_spec {b : Build} {q : OpQueue β} {s : St β} (h : Rel b q s) (idx : TileIndex) :
    q.peekFirst idx = .ok (s.pend idx).head? := by
  unfold peekFirst
  by_cases hc : q.tileMap.contains idx
  · have hin := (TileMap.contains_iff _ _).mp hc
    rw [if_neg (by simpa using hc)]
    simp only [TileMap.get_ok h.wf hin, bind, Except.bind, h.inside idx hin]; rfl
  · have hni : ¬ InBox q.tileMap.size idx := fun hi => hc ((TileMap.contains_iff _ _).mpr hi)
    rw [if_pos hc, h.outside idx hni]; rfl

theorem peekLast_spec {b : Build} {q : OpQueue β} {s : St β} (h : Rel b q s) (idx : TileIndex) :
    q.peekLast idx = .ok (s.pend idx).getLast? := by
  unfold peekLast
  by_cases hc : q.tileMap.contains idx
  · have hin := (TileMap.contains_iff _ _).mp hc
    rw [if_neg (by simpa using hc)]
    simp only [TileMap.get_ok h.wf hin, bind, Except.bind, h.inside idx hin]; rfl
  · have hni : ¬ InBox q.tileMap.size idx := fun hi => hc ((TileMap.contains_iff _ _).mpr hi)
    rw [if_pos hc, h.outside idx hni]; rfl

theorem getDirty_spec {b : Build} {q : OpQueue β} {s : St β} (h : Rel b q s) :
    ∃ l q', q.getDirtyTiles = .ok (l, q') ∧ Rel b q' s ∧ l.Nodup ∧ (∀ t, t ∈ l ↔ s.marked t) ∧
      q'.tileMap.size = q.tileMap.size := by
  obtain ⟨l, hl, hnd, hmem, hlen⟩ := removeDuplicateTiles_ok q.dirty
  refine ⟨l, { q with dirty := l }, by simp only [getDirtyTiles, hl, bind, Except.bind]; rfl, ?_,
    hnd, fun t => by rw [hmem, h.dirtyMem], rfl⟩
  have := h.dirtyLen
  exact ⟨h.size, h.wf, h.inside, h.outside, fun t ht => h.dirtyIn t ((hmem t).mp ht),
    fun t => by rw [hmem, h.dirtyMem], h.cap, by simp only; omega⟩

theorem clear_rel {b : Build} {q : OpQueue β} {s : St β} (h : Rel b q s) :
    Rel b q.clearDirtyTiles (Spec.OpQueue.next s .clearDirty) := by
  have := (sizeOk_le h.size).1
  have h0 : 0 ≤ 4 * q.tileMap.size * q.tileMap.size := by nlinarith
  exact ⟨h.size, h.wf, h.inside, h.outside, by simp [clearDirtyTiles],
    by simp [clearDirtyTiles, Spec.OpQueue.next], h.cap, by simpa [clearDirtyTiles] using h0⟩

/-- Every call that does not fault answers correctly and keeps the relation. -/
theorem step_spec {b : Build} {q : OpQueue β} {s : St β} (h : Rel b q s) {op : Op β}
    {o : Out β} {q' : OpQueue β} (hs : q.step b op = .ok (o, q')) :
    Spec.OpQueue.OutOk s op o ∧ Rel b q' (Spec.OpQueue.next s op) := by
  cases op with
  | add idx op =>
    rcases add_spec h idx op with ⟨_, he⟩ | ⟨_, _, _, he⟩ | ⟨_, _, q1, he, hr, _⟩
    · simp only [step, he, bind, Except.bind] at hs; cases hs
    · simp only [step, he, bind, Except.bind] at hs; cases hs
    · simp only [step, he, bind, Except.bind, pure, Except.pure] at hs
      cases hs
      exact ⟨trivial, hr⟩
  | pop idx =>
    obtain ⟨q1, he, hr, _⟩ := pop_spec h idx
    simp only [step, he, bind, Except.bind, pure, Except.pure] at hs
    cases hs
    exact ⟨rfl, hr⟩
  | peekFirst idx =>
    simp only [step, peekFirst_spec h idx, bind, Except.bind, pure, Except.pure] at hs
    cases hs
    exact ⟨rfl, h⟩
  | peekLast idx =>
    simp only [step, peekLast_spec h idx, bind, Except.bind, pure, Except.pure] at hs
    cases hs
    exact ⟨rfl, h⟩
  | getDirty =>
    obtain ⟨l, q1, he, hr, hnd, hmem, _⟩ := getDirty_spec h
    simp only [step, he, bind, Except.bind, pure, Except.pure] at hs
    cases hs
    exact ⟨⟨hnd, hmem⟩, hr⟩
  | clearDirty =>
    simp only [step, pure, Except.pure] at hs
    cases hs
    exact ⟨trivial, clear_rel h⟩

theorem run_spec {b : Build} : ∀ {ops : List (Op β)} {q : OpQueue β} {s : St β} {os : List (Out β)}
    {q' : OpQueue β}, Rel b q s → run b q ops = .ok (os, q') →
      Spec.OpQueue.OutsOk s ops os ∧ Rel b q' (Spec.OpQueue.after s ops)
  | [], q, s, os, q', h, hr => by
    simp only [run] at hr; cases hr; exact ⟨trivial, h⟩
  | op :: ops, q, s, os, q', h, hr => by
    simp only [run, bind, Except.bind] at hr
    split at hr
    · cases hr
    next v hv =>
      obtain ⟨o, q1⟩ := v
      obtain ⟨ho, h1⟩ := step_spec h hv
      split at hr
      · cases hr
      next v' hv' =>
        obtain ⟨os', q2⟩ := v'
        obtain ⟨h2, h3⟩ := run_spec h1 hv'
        simp only [pure, Except.pure] at hr
        cases hr
        exact ⟨⟨ho, h2⟩, h3⟩

/-- Filling distinct, unmarked, empty tiles of the current map always succeeds. -/
theorem fill_ok {b : Build} (x : β) : ∀ (l : List TileIndex) (q : OpQueue β) (s : St β), Rel b q s →
    l.Nodup → (∀ t ∈ l, InBox q.tileMap.size t ∧ ¬ s.marked t ∧ s.pend t = []) →
    ∃ os q' s', run b q (l.map (fun t => Op.add t x)) = .ok (os, q') ∧ Rel b q' s' ∧
      s' = Spec.OpQueue.after s (l.map (fun t => Op.add t x)) ∧
      q'.tileMap.size = q.tileMap.size ∧
      (∀ t, s'.marked t ↔ (s.marked t ∨ t ∈ l)) ∧
      (∀ t, s'.pend t = if t ∈ l then [x] else s.pend t)
  | [], q, s, h, _, _ => ⟨[], q, s, rfl, h, rfl, rfl, by simp, by simp⟩
  | u :: l, q, s, h, hnd, hl => by
    obtain ⟨hin, hnm, hp⟩ := hl u (by simp)
    rw [List.nodup_cons] at hnd
    rcases add_spec h u x with ⟨hb, _⟩ | ⟨_, _, hall, _⟩ | ⟨_, _, q1, he, hr, _, hsz⟩
    · exact absurd (TileMap.inBox_mono (sizeOk_le h.size).2 hin) hb
    · exact absurd (hall u hin) hnm
    · have hsz1 := hsz hin
      obtain ⟨os, q', s', hrun, hr', hs', hszq, hm, hpd⟩ := fill_ok x l q1 _ hr hnd.2 (by
        intro t ht
        obtain ⟨h1, h2, h3⟩ := hl t (by simp [ht])
        have htu : t ≠ u := fun he => hnd.1 (he ▸ ht)
        refine ⟨by rw [hsz1]; exact h1, ?_, ?_⟩
        · simp only [Spec.OpQueue.next]; rintro (hc | ⟨hc, _⟩)
          · exact h2 hc
          · exact htu hc
        · simp only [Spec.OpQueue.next, Spec.OpQueue.setPend, if_neg htu]; exact h3)
      refine ⟨.unit :: os, q', s', ?_, hr', hs', by rw [hszq, hsz1], ?_, ?_⟩
      · simp only [List.map_cons, run, step, he, bind, Except.bind, pure, Except.pure, hrun]
      · intro t; rw [hm t]; simp only [Spec.OpQueue.next, hp, and_true, List.mem_cons, or_assoc]
      · intro t; rw [hpd t]; simp only [Spec.OpQueue.next, Spec.OpQueue.setPend, List.mem_cons, hp]
        by_cases h1 : t ∈ l
        · simp [h1]
        · by_cases h2 : t = u
          · simp [h2]
          · simp [h1, h2]

theorem run_append {b : Build} : ∀ (o1 o2 : List (Op β)) (q : OpQueue β),
    run b q (o1 ++ o2) = (do
      let (a, q1) ← run b q o1
      let (c, q2) ← run b q1 o2
      pure (a ++ c, q2))
  | [], o2, q => by
    simp only [List.nil_append, run, bind, Except.bind, pure, Except.pure]
    cases run b q o2 <;> rfl
  | o :: o1, o2, q => by
    simp only [List.cons_append, run, bind, Except.bind]
    cases step b q o with
    | error e => rfl
    | ok v =>
      simp only [run_append o1 o2, bind, Except.bind]
      cases run b v.2 o1 with
      | error e => rfl
      | ok w =>
        simp only [pure, Except.pure]
        cases run b w.2 o2 <;> rfl

end Verif.OpQueue
