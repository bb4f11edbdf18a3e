import Verif.Lemmas.Threads
import Verif.Props.C76_Memory

/-!
# C77: threads that process tiles do not disturb each other

Each thread of the team runs `process_tile` for its own tiles, one statement at a time, in any
interleaving.  Nothing is locked.
-/

namespace Verif.Threads

open QueueMemory Spec.QueueMemory
open Spec.Surf (OrderOk final)

variable {β T : Type}

/-- The invariant after a session, with the picture it stands for. -/
theorem session_picture {b : Build} {k : DabKind β T} (hk : ∀ d, (k.tilesOf d).Nodup)
    {al : Alloc β} (hal : AllocOk al) {c : TileIndex → T} {es : List (Surf.Event β)}
    (ho : ∀ e ∈ es, OrderOk e) :
    ∃ N, ∀ fuel ≥ N, ∀ r s, session al b k.tilesOf fuel es = .ok (r, s) →
      ∃ (G : Nat → List (Nat × Nat)) (S : Surf β T) (st : Spec.OpQueue.St β),
        Rep True b s [] G S ∧ Surf.Stands b k S st (final k c es) ∧ S.canvas = applied k c r := by
  obtain ⟨N0, h0⟩ := session_memory b k hk al hal c es ho
  cases hv : Surf.session b k c es with
  | error e =>
    refine ⟨N0, fun fuel hf r s hr => ?_⟩
    have := h0 fuel hf
    rw [hr] at this
    obtain ⟨_, _, _, hx, _⟩ := this
    rw [hv] at hx; cases hx
  | ok x =>
    obtain ⟨N, r, s, G, hr, hrep, hc⟩ := session_sim (k := k) hal hv
    refine ⟨N, fun fuel hf r' s' hr' => ?_⟩
    have := hr fuel hf
    rw [hr'] at this
    cases this
    obtain ⟨_, st, hst⟩ := Surf.session_stands (k := k) hk ho hv
    exact ⟨G, x.2, st, hrep, hst, hc⟩

/-- **C77, no interference.**  After any session, let any number of threads process tiles, no tile
handed to two of them.  Under every schedule no thread touches released memory, and no two threads
ever access the same cell of memory, be it for reading or writing. -/
theorem threads_never_collide (b : Build) (k : DabKind β T) (hk : ∀ d, (k.tilesOf d).Nodup)
    (al : Alloc β) (hal : AllocOk al) (es : List (Surf.Event β)) (ho : ∀ e ∈ es, OrderOk e) :
    ∃ N, ∀ fuel ≥ N, ∀ r s, session al b k.tilesOf fuel es = .ok (r, s) →
      ∀ (c : TileIndex → T) (jobs : Nat → List TileIndex), (∀ i, (jobs i).Nodup) →
        (∀ i j t, t ∈ jobs i → t ∈ jobs j → i = j) →
        ∀ sched, ∃ tr ths m,
          exec s.q.tileMap.size k sched (fun i => Thread.start (jobs i)) (shared s c) = .ok (tr, ths, m) ∧
          ∀ x ∈ tr, ∀ y ∈ tr, x.1 ≠ y.1 → x.2.1 ≠ y.2.1 := by
  obtain ⟨N, hN⟩ := session_rep (b := b) hk hal ho
  refine ⟨N, fun fuel hf r s hr c jobs hj hd sched => ?_⟩
  obtain ⟨G, S, st, hrep, _⟩ := hN fuel hf r s hr
  have ht := tidy_of_inv hrep.inv hrep.full
  obtain ⟨_, hrun⟩ := team_runs (k := k) hrep.inv ht (c := c) jobs hj hd
  obtain ⟨tr, ths, m, he, htr, _⟩ := hrun sched
  refine ⟨tr, ths, m, he, fun x hx y hy hne hc => hne ?_⟩
  obtain ⟨t, h1, h2⟩ := htr x hx
  obtain ⟨u, h3, h4⟩ := htr y hy
  rw [hc] at h2
  have := region_own ht h2 h4
  subst this
  exact hd _ _ t h1 h3

/-- **C77, the result does not depend on the schedule.**  After any session let a team of threads
process the dirty tiles, each tile handed to exactly one thread.  Every thread ends after a bounded
number of steps of its own, whatever the others do; and when all have ended, the picture is the one
obtained by applying every dab at once, and all memory of the queue is free. -/
theorem parallel_end_atomic (b : Build) (k : DabKind β T) (hk : ∀ d, (k.tilesOf d).Nodup)
    (al : Alloc β) (hal : AllocOk al) (c : TileIndex → T) (es : List (Surf.Event β))
    (ho : ∀ e ∈ es, OrderOk e) :
    ∃ N, ∀ fuel ≥ N, ∀ r s, session al b k.tilesOf fuel es = .ok (r, s) →
      ∀ jobs : Nat → List TileIndex, (∀ i, (jobs i).Nodup) →
        (∀ i j t, t ∈ jobs i → t ∈ jobs j → i = j) → (∀ t ∈ s.q.dirty, ∃ i, t ∈ jobs i) →
        ∃ steps : Nat → Nat, ∀ sched, ∃ tr ths m,
          exec s.q.tileMap.size k sched (fun i => Thread.start (jobs i)) (shared s (applied k c r))
            = .ok (tr, ths, m) ∧
          (∀ i, steps i ≤ sched.count i → (ths i).finished) ∧
          ((∀ i, (ths i).finished) →
            (∀ t, m (.tile t) = final k c es t) ∧ (∀ t, m (.slot t) = (none : Option Nat)) ∧
            ∀ a, m (.fifo a) = (none : Option Fifo.Hdr) ∧
              m (.item a) = (none : Option (Fifo.Item Nat)) ∧ m (.op a) = (none : Option β)) := by
  obtain ⟨N, hN⟩ := session_picture (b := b) hk hal (c := c) ho
  refine ⟨N, fun fuel hf r s hr jobs hj hd hcov => ?_⟩
  obtain ⟨G, S, st, hrep, hst, hcan⟩ := hN fuel hf r s hr
  have ht := tidy_of_inv hrep.inv hrep.full
  obtain ⟨steps, hrun⟩ := team_runs (k := k) hrep.inv ht (c := applied k c r) jobs hj hd
  refine ⟨steps, fun sched => ?_⟩
  obtain ⟨tr, ths, m, he, _, hfin, hdone, hrest⟩ := hrun sched
  refine ⟨tr, ths, m, he, hfin, fun hall => ?_⟩
  have hsz : S.queue.tileMap.size = s.q.tileMap.size := by rw [hrep.queue]; rfl
  have hdir : S.queue.dirty = s.q.dirty := by rw [hrep.queue]; rfl
  -- what waits, seen from the specification
  have hpend : ∀ t, st.pend t = if s.q.tileMap.contains t then waiting s G t else [] := by
    intro t
    by_cases hc : s.q.tileMap.contains t = true
    · have hin := (TileMap.contains_iff _ _).mp hc
      rw [if_pos hc, ← hst.rel.inside t (by rw [hsz]; exact hin), hrep.queue]
      show ((TileMap.mapT (contents s.mem G) s.q.tileMap).at' t).getD [] = _
      rw [TileMap.at'_mapT]; rfl
    · rw [if_neg hc]
      exact hst.rel.outside t (by rw [hsz]; exact fun h => hc ((TileMap.contains_iff _ _).mpr h))
  have hcover : ∀ t, st.pend t ≠ [] → ∃ i, t ∈ jobs i := fun t h =>
    hcov t (by rw [← hdir]; exact (hst.rel.dirtyMem t).mpr (hst.marked t h))
  have hslot : ∀ t a, Slot s t a → ∃ i, t ∈ jobs i := by
    intro t a h
    obtain ⟨h1, h2⟩ := (slot_iff hrep.inv t a).mp h
    refine hcover t ?_
    rw [hpend t, if_pos h.1, waiting, h2]
    intro hc
    exact hrep.full trivial t a h1 h2 ((contents_nil hrep.inv (slot_live hrep.inv h)).mp hc)
  have hitem : ∀ t a, ItemOf s t a → ∃ i, t ∈ jobs i := fun t a ⟨x, _, hx, _⟩ => hslot t x hx
  have hop : ∀ t a, Waits s t a → ∃ i, t ∈ jobs i := fun t a ⟨x, _, hx, _⟩ => hitem t x hx
  have hD : ∀ t, (∃ i, t ∈ jobs i) → Done s G k (applied k c r) t m := fun t ⟨i, hi⟩ =>
    hdone i (hall i) t hi
  refine ⟨fun t => ?_, fun t => ?_, fun a => ⟨?_, ?_, ?_⟩⟩
  · by_cases hc : ∃ i, t ∈ jobs i
    · rw [(hD t hc).tile, ← hpend t, ← hcan]
      exact hst.eq t
    · have hp : st.pend t = [] := by
        by_contra h; exact hc (hcover t h)
      rw [hrest (.tile t) ?_]
      · have := hst.eq t
        rw [hp, hcan] at this
        exact this
      · rintro i u hu (h | h | ⟨_, _, h⟩ | ⟨_, _, h⟩ | ⟨_, _, h⟩) <;> cases h
        exact hc ⟨i, hu⟩
  · by_cases hc : ∃ i, t ∈ jobs i
    · exact (hD t hc).slot
    · rw [hrest (.slot t) ?_]
      · exact shared_noSlot hrep.inv (fun a ha => hc (hslot t a ha))
      · rintro i u hu (h | h | ⟨_, _, h⟩ | ⟨_, _, h⟩ | ⟨_, _, h⟩) <;> cases h
        exact hc ⟨i, hu⟩
  · by_cases hl : s.mem.fifos a = none
    · rw [hrest (.fifo a) ?_]
      · exact hl
      · rintro i u hu (h | h | ⟨x, hx, h⟩ | ⟨_, _, h⟩ | ⟨_, _, h⟩) <;> cases h
        exact slot_live hrep.inv hx hl
    · obtain ⟨t, h⟩ := (ht.fifo a).mp hl
      exact (hD t (hslot t a h)).fifo a h
  · by_cases hl : s.mem.items a = none
    · rw [hrest (.item a) ?_]
      · exact hl
      · rintro i u hu (h | h | ⟨x, hx, h⟩ | ⟨x, hx, h⟩ | ⟨_, _, h⟩) <;> cases h
        exact (ht.item _).mpr ⟨u, hx⟩ hl
    · obtain ⟨t, h⟩ := (ht.item a).mp hl
      exact (hD t (hitem t a h)).item a h
  · by_cases hl : s.mem.ops a = none
    · rw [hrest (.op a) ?_]
      · exact hl
      · rintro i u hu (h | h | ⟨x, hx, h⟩ | ⟨x, hx, h⟩ | ⟨x, hx, h⟩) <;> cases h
        exact (ht.op _).mpr ⟨u, hx⟩ hl
    · obtain ⟨t, h⟩ := (ht.op a).mp hl
      exact (hD t (hop t a h)).op a h

/-- **C77, for the list that `end_atomic` makes.**  The dirty tiles without duplicates, shared out to
the threads in any way, meet the hypotheses on the jobs of `threads_never_collide` and
`parallel_end_atomic`. -/
theorem dirty_tiles_shared_out (dirty : List TileIndex) (who : TileIndex → Nat) :
    ∃ tiles, OpQueue.removeDuplicateTiles dirty = .ok tiles ∧
      (∀ i, (tiles.filter fun t => who t = i).Nodup) ∧
      (∀ i j t, t ∈ tiles.filter (fun t => who t = i) → t ∈ tiles.filter (fun t => who t = j) → i = j) ∧
      ∀ t ∈ dirty, ∃ i, t ∈ tiles.filter fun t => who t = i := by
  obtain ⟨l, hl, hnd, hmem, _⟩ := OpQueue.removeDuplicateTiles_ok dirty
  refine ⟨l, hl, fun i => hnd.filter _, fun i j t h1 h2 => ?_, fun t ht => ⟨who t, ?_⟩⟩
  · simp only [List.mem_filter, decide_eq_true_eq] at h1 h2
    exact h1.2.symm.trans h2.2
  · simpa using (hmem t).mpr ht

/-- The list of accesses that the theorems speak about is honest: a step depends on no other cell than
those it is said to read or write, and changes no other cell than those it is said to write. -/
theorem accesses_honest (size : Int) (k : DabKind β T) (th th1 : Thread) (m m1 m' : Shared β T)
    (h : step size k th m = .ok (th1, m1)) (hm : ∀ a ∈ accesses size th.pc, m' a.1 = m a.1) :
    (∀ x, (x, true) ∉ accesses size th.pc → m1 x = m x) ∧
    ∃ m1', step size k th m' = .ok (th1, m1') ∧ ∀ x, m' x = m x → m1' x = m1 x :=
  ⟨fun _ hx => step_outside h _ hx, step_frame h hm⟩

/-- What the examples look at: tiles 0 to 2 of the first row, whether threads 0 and 1 have ended, and
the addresses below 9 in use. -/
def look (x : Except Fault (List (Nat × Cell × Bool) × Team × Shared Nat (List Nat))) :
    Option (List (List Nat) × Bool × List Nat) :=
  match x with
  | .error _ => none
  | .ok (_, ths, m) => some ([m (.tile ⟨0, 0⟩), m (.tile ⟨1, 0⟩), m (.tile ⟨2, 0⟩)],
      decide (ths 0 = ⟨.idle, []⟩ ∧ ths 1 = ⟨.idle, []⟩),
      (List.range 9).filter fun a => (m (.fifo a) : Option Fifo.Hdr).isSome ||
        (m (.item a) : Option (Fifo.Item Nat)).isSome || (m (.op a) : Option Nat).isSome)

/-- Three dabs wait, threads 0 and 1 process the tiles `j0` and `j1`. -/
def twoThreads (j0 j1 : List TileIndex) (sched : List Nat) :
    Except Fault (List (Nat × Cell × Bool) × Team × Shared Nat (List Nat)) :=
  (session bump .heavyDebug Surf.demo.tilesOf 10 [.dab 1, .dab 0, .dab 2]).bind fun x =>
    exec x.2.q.tileMap.size Surf.demo sched
      (fun i => Thread.start (if i = 0 then j0 else if i = 1 then j1 else [])) (shared x.2 fun _ => [])

/-- Two threads in turns: the picture is the one of the dabs applied at once, everything is free. -/
example : look (twoThreads [⟨0, 0⟩] [⟨2, 0⟩, ⟨1, 0⟩] ((List.range 90).map (· % 2)))
    = some ([Spec.Surf.final Surf.demo (fun _ => []) [.dab 1, .dab 0, .dab 2] ⟨0, 0⟩,
        Spec.Surf.final Surf.demo (fun _ => []) [.dab 1, .dab 0, .dab 2] ⟨1, 0⟩,
        Spec.Surf.final Surf.demo (fun _ => []) [.dab 1, .dab 0, .dab 2] ⟨2, 0⟩], true, []) := by
  decide +kernel

/-- In the middle of it the threads are not done. -/
example : look (twoThreads [⟨0, 0⟩] [⟨2, 0⟩, ⟨1, 0⟩] ((List.range 30).map (· % 2)))
    = some ([[1], [], [2]], false, [0, 1, 2, 3]) := by
  decide +kernel

/-- The hypothesis that no tile is handed out twice is needed: two threads that process the same tile
touch memory that is already released. -/
example : look (twoThreads [⟨0, 0⟩] [⟨0, 0⟩] ((List.range 90).map (· % 2))) = none := by
  decide +kernel

end Verif.Threads
