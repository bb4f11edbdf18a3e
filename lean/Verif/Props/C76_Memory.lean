import Verif.Lemmas.QueueTidy
import Verif.Props.C06_DeferredDrawing

/-!
# C76: the memory of deferred drawing

The queue of operations on the heap, with any `malloc` that returns unused blocks: no session of
dabs, colour sampling and finished blocks touches released memory or releases anything twice, what
is painted is what `Verif.Props.C06_DeferredDrawing` says, and after a finished block all memory is
free.  Two leaks are shown: destroying a surface with dabs waiting, and a tile the backend does not
deliver.
-/

namespace Verif.QueueMemory

open Spec.QueueMemory
open Spec.Surf (OrderOk final)

variable {β T : Type}

/-- A session on a new surface. -/
def session (al : Alloc β) (b : Build) (tilesOf : β → List TileIndex) (fuel : Nat)
    (es : List (Surf.Event β)) : Except Fault (List (TileIndex × List β) × State β) := do
  let s ← init b
  run al b tilesOf fuel s es

/-- The simulation, for a whole session. -/
theorem session_sim {b : Build} {k : DabKind β T} {al : Alloc β} (hal : AllocOk al)
    {c : TileIndex → T} {es : List (Surf.Event β)} {os : List (List T)} {S : Surf β T}
    (h : Surf.session b k c es = .ok (os, S)) :
    ∃ N r s G, (∀ fuel ≥ N, session al b k.tilesOf fuel es = .ok (r, s)) ∧ Rep True b s [] G S ∧
      S.canvas = applied k c r := by
  obtain ⟨s0, hs0, S0, hS0, hc0, hrep0⟩ := init_sim (β := β) (P := True) b c
  simp only [Surf.session, hS0, bind, Except.bind] at h
  obtain ⟨N, r, s, G, hr, hrep, hc⟩ := run_sim hal k es s0 [] _ S0 S os hrep0 h
  refine ⟨N, r, s, G, fun fuel hf => ?_, hrep, by rw [hc, hc0]⟩
  simp only [session, hs0, bind, Except.bind]
  exact hr fuel hf

/-- **C76, no use of released memory.**  For every session and every allocator: either the session
runs to its end, having painted exactly what the queue of lists of `Verif.Model.OperationQueue` would
have painted, and memory is tidy; or it stops with the fault of that queue, which is an overflow of
the size of the map or a failed assertion -- never an access to released memory, a second release, or
an access outside an array. -/
theorem session_memory (b : Build) (k : DabKind β T) (hk : ∀ d, (k.tilesOf d).Nodup) (al : Alloc β)
    (hal : AllocOk al) (c : TileIndex → T) (es : List (Surf.Event β)) (ho : ∀ e ∈ es, OrderOk e) :
    ∃ N, ∀ fuel ≥ N,
      match session al b k.tilesOf fuel es with
      | .ok (r, s) => Tidy s ∧ ∃ os S, Surf.session b k c es = .ok (os, S) ∧ S.canvas = applied k c r
      | .error e => Surf.session b k c es = .error e ∧ (e = .intOverflow ∨ e = .assertFail) := by
  cases hv : Surf.session b k c es with
  | ok x =>
    obtain ⟨N, r, s, G, hr, hrep, hc⟩ := session_sim (k := k) hal hv
    refine ⟨N, fun fuel hf => ?_⟩
    rw [hr fuel hf]
    exact ⟨tidy_of_inv hrep.inv hrep.full, x.1, x.2, rfl, hc⟩
  | error e =>
    obtain ⟨s0, hs0, S0, hS0, hc0, hrep0⟩ := init_sim (β := β) (P := True) b c
    obtain ⟨S1, st, hS1, hst, _⟩ := Surf.init_stands b k c
    rw [hS0] at hS1
    cases hS1
    simp only [Surf.session, hS0, bind, Except.bind] at hv
    obtain ⟨⟨N, hr⟩, hcase⟩ := run_err hal k hk es s0 [] _ S0 st c hrep0 hst ho hv
    refine ⟨N, fun fuel hf => ?_⟩
    have : session al b k.tilesOf fuel es = .error e := by
      simp only [session, hs0, bind, Except.bind]; exact hr fuel hf
    rw [this]
    exact ⟨rfl, hcase⟩

/-- **C76, nothing is left.**  After a session whose last block is finished, the canvas is the one
obtained by applying every dab at once, and no block of memory is in use. -/
theorem nothing_left (b : Build) (k : DabKind β T) (hk : ∀ d, (k.tilesOf d).Nodup) (al : Alloc β)
    (hal : AllocOk al) (c : TileIndex → T) (es : List (Surf.Event β))
    (order : List TileIndex → List TileIndex) (ho : ∀ e ∈ es ++ [.endAtomic order], OrderOk e) :
    ∃ N, ∀ fuel ≥ N, ∀ r s, session al b k.tilesOf fuel (es ++ [.endAtomic order]) = .ok (r, s) →
      AllFree s.mem ∧ applied k c r = final k c es := by
  obtain ⟨N0, h0⟩ := session_memory b k hk al hal c (es ++ [.endAtomic order]) ho
  cases hv : Surf.session b k c (es ++ [.endAtomic order]) with
  | error e =>
    refine ⟨N0, fun fuel hf r s hr => ?_⟩
    have := h0 fuel hf
    rw [hr] at this
    obtain ⟨_, _, _, hx, _⟩ := this
    rw [hv] at hx; cases hx
  | ok x =>
    obtain ⟨os, S⟩ := x
    obtain ⟨N, r, s, G, hr, hrep, hc⟩ := session_sim (k := k) hal hv
    obtain ⟨S0, st0, hS0, hst0, _⟩ := Surf.init_stands b k c
    have hrun := hv
    simp only [Surf.session, hS0, bind, Except.bind] at hrun
    obtain ⟨st, hst, hp⟩ := run_ends hk hst0 ho hrun
    have hfree := free_of_empty hrep hst hp
    refine ⟨N, fun fuel hf r' s' hr' => ?_⟩
    rw [hr fuel hf] at hr'
    cases hr'
    refine ⟨fun a => ⟨(hfree a).1, (hfree a).2.1, ?_⟩, ?_⟩
    · by_contra hc
      exact absurd ((hfree a).2.2.mp hc) (by simp)
    · rw [← hc]
      exact (Surf.deferred_eq_immediate b k hk c es order ho os S hv).2

/-- Operations that only have tiles. -/
def bare (tilesOf : β → List TileIndex) : DabKind β Unit := ⟨tilesOf, fun _ _ u => u⟩

/-- The invariant after a session. -/
theorem session_rep {b : Build} {tilesOf : β → List TileIndex} (hk : ∀ d, (tilesOf d).Nodup)
    {al : Alloc β} (hal : AllocOk al) {es : List (Surf.Event β)} (ho : ∀ e ∈ es, OrderOk e) :
    ∃ N, ∀ fuel ≥ N, ∀ r s, session al b tilesOf fuel es = .ok (r, s) →
      ∃ (G : Nat → List (Nat × Nat)) (S : Surf β Unit) (st : Spec.OpQueue.St β),
        Rep True b s [] G S ∧ Surf.Stands b (bare tilesOf) S st (fun _ => ()) := by
  obtain ⟨N0, h0⟩ := session_memory b (bare tilesOf) hk al hal (fun _ => ()) es ho
  cases hv : Surf.session b (bare tilesOf) (fun _ => ()) es with
  | error e =>
    refine ⟨N0, fun fuel hf r s hr => ?_⟩
    have := h0 fuel hf
    rw [show (bare tilesOf).tilesOf = tilesOf from rfl, hr] at this
    obtain ⟨_, _, _, hx, _⟩ := this
    rw [hv] at hx; cases hx
  | ok x =>
    obtain ⟨N, r, s, G, hr, hrep, _⟩ := session_sim (k := bare tilesOf) hal hv
    refine ⟨N, fun fuel hf r' s' hr' => ?_⟩
    have := hr fuel hf
    rw [show (bare tilesOf).tilesOf = tilesOf from rfl, hr'] at this
    cases this
    obtain ⟨_, st, hst⟩ := Surf.session_stands (k := bare tilesOf) hk ho hv
    exact ⟨G, x.2, st, hrep, hst⟩

/-- **C76, destroying a surface.**  After any session destroying the queue succeeds, touches no
released memory, and leaves exactly the operations that were still waiting. -/
theorem destroy_leaves_waiting (b : Build) (tilesOf : β → List TileIndex)
    (hk : ∀ d, (tilesOf d).Nodup) (al : Alloc β) (hal : AllocOk al) (es : List (Surf.Event β))
    (ho : ∀ e ∈ es, OrderOk e) :
    ∃ N, ∀ fuel ≥ N, ∀ r s, session al b tilesOf fuel es = .ok (r, s) →
      ∃ m, (∃ M, ∀ fuel ≥ M, destroy fuel s.mem s.q = .ok m) ∧
        ∀ a, m.fifos a = none ∧ m.items a = none ∧ (m.ops a ≠ none ↔ ∃ t, Waits s t a) := by
  obtain ⟨N, hN⟩ := session_rep (b := b) hk hal ho
  refine ⟨N, fun fuel hf r s hr => ?_⟩
  obtain ⟨G, S, st, hrep, _⟩ := hN fuel hf r s hr
  obtain ⟨M, m, hm, h1, h2, h3⟩ := destroy_inv hrep.inv
  refine ⟨m, ⟨M, hm⟩, fun a => ⟨h1 a, h2 a, ?_⟩⟩
  rw [h3]
  exact (tidy_of_inv hrep.inv hrep.full).op a

/-- **C76, destroying a surface after a finished block.**  Everything is released. -/
theorem destroy_after_block (b : Build) (tilesOf : β → List TileIndex)
    (hk : ∀ d, (tilesOf d).Nodup) (al : Alloc β) (hal : AllocOk al) (es : List (Surf.Event β))
    (order : List TileIndex → List TileIndex) (ho : ∀ e ∈ es ++ [.endAtomic order], OrderOk e) :
    ∃ N, ∀ fuel ≥ N, ∀ r s, session al b tilesOf fuel (es ++ [.endAtomic order]) = .ok (r, s) →
      ∃ m, (∃ M, ∀ fuel ≥ M, destroy fuel s.mem s.q = .ok m) ∧ AllFree m := by
  obtain ⟨N, hN⟩ := destroy_leaves_waiting b tilesOf hk al hal _ ho
  obtain ⟨N', hN'⟩ := nothing_left b (bare tilesOf) hk al hal (fun _ => ()) es order ho
  refine ⟨max N N', fun fuel hf r s hr => ?_⟩
  obtain ⟨m, hm, h1⟩ := hN fuel (le_trans (le_max_left _ _) hf) r s hr
  obtain ⟨h2, _⟩ := hN' fuel (le_trans (le_max_right _ _) hf) r s hr
  refine ⟨m, hm, fun a => ⟨(h1 a).1, (h1 a).2.1, ?_⟩⟩
  by_contra hc
  obtain ⟨t, i, it, hi, hit, _⟩ := (h1 a).2.2.mp hc
  rw [(h2 i).2.1] at hit
  cases hit

/-- **C76, a leak.**  Destroying a surface does not always release all its memory: after a single dab
on one tile, whatever the allocator does, the operation stays allocated. -/
theorem destroy_can_leak (al : Alloc Nat) (hal : AllocOk al) :
    ∃ N, ∀ fuel ≥ N, ∃ r s m, session al .heavyDebug Surf.demo.tilesOf fuel [.dab 0] = .ok (r, s) ∧
      (∃ M, ∀ fuel ≥ M, destroy fuel s.mem s.q = .ok m) ∧ ¬ AllFree m := by
  obtain ⟨S, hS, hi, ha⟩ : ∃ S, Surf.session .heavyDebug Surf.demo (fun _ => []) [.dab 0] = .ok ([[]], S) ∧
      Spec.TileMap.InBox S.queue.tileMap.size ⟨0, 0⟩ ∧ S.queue.tileMap.at' ⟨0, 0⟩ = some [0] := by
    refine ⟨_, rfl, ?_, ?_⟩
    · decide +kernel
    · decide +kernel
  obtain ⟨N, r, s, G, hr, hrep, _⟩ := session_sim (k := Surf.demo) hal hS
  obtain ⟨N', hN'⟩ := destroy_leaves_waiting .heavyDebug Surf.demo.tilesOf Surf.demo_nodup al hal [.dab 0]
    (by simp [OrderOk])
  refine ⟨max N N', fun fuel hf => ?_⟩
  have hrun := hr fuel (le_trans (le_max_left _ _) hf)
  obtain ⟨m, hm, h1⟩ := hN' fuel (le_trans (le_max_right _ _) hf) r s hrun
  refine ⟨r, s, m, hrun, hm, fun hc => ?_⟩
  obtain ⟨o, ho⟩ := waits_of_pend hrep hi ha
  exact (h1 o).2.2.mpr ⟨_, ho⟩ (hc o).2.2

/-- **C76, another leak.**  If something waits for a tile that the backend does not deliver, one
operation is taken from the queue and lost: it is still allocated, waits for no tile, and stays so
whatever is painted later. -/
theorem undelivered_tile_leaks (b : Build) (tilesOf : β → List TileIndex)
    (hk : ∀ d, (tilesOf d).Nodup) (al : Alloc β) (hal : AllocOk al) (es : List (Surf.Event β))
    (ho : ∀ e ∈ es, OrderOk e) :
    ∃ N, ∀ fuel ≥ N, ∀ r s, session al b tilesOf fuel es = .ok (r, s) →
      ∀ t, (∃ o, Waits s t o) →
        ∃ o s', (∀ fuel, processTile fuel false s t = .ok ([], s')) ∧ Waits s t o ∧
          ∀ es', (∀ e ∈ es', OrderOk e) → ∃ N', ∀ fuel ≥ N', ∀ r' s'',
            run al b tilesOf fuel s' es' = .ok (r', s'') →
            s''.mem.ops o ≠ none ∧ ∀ u, ¬ Waits s'' u o := by
  obtain ⟨N, hN⟩ := session_rep (b := b) hk hal ho
  refine ⟨N, fun fuel hf r s hr t ⟨o0, ho0⟩ => ?_⟩
  obtain ⟨G, S, st, hrep, hst⟩ := hN fuel hf r s hr
  obtain ⟨o, m', q', hp, hw⟩ := pop_waits ho0
  obtain ⟨m2, q2, G2, hops, hdir, hfb, hcase⟩ := pop_sim (P := True) (q := s.q) hrep.inv t
  rcases hcase with ⟨hp', -⟩ | ⟨o', d, hp', hinv, hd, hval⟩
  · rw [hp] at hp'; cases hp'
  rw [hp] at hp'
  cases hp'
  refine ⟨o, { s with mem := m', q := q' }, fun fuel => ?_, hw, ?_⟩
  · simp only [processTile, hp, bind, Except.bind]; rfl
  intro es' ho'
  -- the surface goes on with one operation less
  obtain ⟨S2, hS2⟩ : ∃ S2 : Surf β Unit, S2 = ⟨absQ (contents m' G2) q', fun _ => ()⟩ := ⟨_, rfl⟩
  have hrep2 : Rep False b { s with mem := m', q := q' } [o] G2 S2 :=
    ⟨hinv, fun hc => hc.elim, by rw [hS2]⟩
  have hst2 : ∃ st2, Surf.Stands b (bare tilesOf) S2 st2 (fun _ => ()) := by
    rw [← hrep.queue] at hval
    obtain ⟨q1, hq1, hr1, _⟩ := OpQueue.pop_spec hst.rel t
    rw [hval] at hq1
    have e1 := congrArg Prod.snd (Except.ok.inj hq1)
    simp only at e1
    refine ⟨_, ⟨by rw [hS2]; simp only [e1]; exact hr1, fun _ => rfl, fun u hu => ?_⟩⟩
    refine hst.marked u fun hc => hu ?_
    simp only [Spec.OpQueue.next, Spec.OpQueue.setPend]
    by_cases hut : u = t
    · subst hut; rw [if_pos rfl, hc]; rfl
    · rw [if_neg hut]; exact hc
  obtain ⟨st2, hst2⟩ := hst2
  cases hv : Surf.run b (bare tilesOf) S2 es' with
  | error e =>
    obtain ⟨⟨N', hN'⟩, _⟩ := run_err hal (bare tilesOf) hk es' _ [o] G2 S2 st2 _ hrep2 hst2 ho' hv
    refine ⟨N', fun fuel hf r' s'' hr' => ?_⟩
    have := hN' fuel hf
    rw [show (bare tilesOf).tilesOf = tilesOf from rfl, hr'] at this
    cases this
  | ok x =>
    obtain ⟨N', r2, s2, G3, hN', hrep3, _⟩ := run_sim hal (bare tilesOf) es' _ [o] G2 S2 x.2 x.1 hrep2 hv
    refine ⟨N', fun fuel hf r' s'' hr' => ?_⟩
    have := hN' fuel hf
    rw [show (bare tilesOf).tilesOf = tilesOf from rfl, hr'] at this
    cases this
    exact ⟨(live_op hrep3.inv o).mpr (Or.inl (by simp)), fun u => held_waits hrep3.inv (by simp) u⟩

/-- Non-vacuity: there are allocators as required. -/
example : ∃ al : Alloc β, AllocOk al := by
  classical
  refine ⟨fun _ m => if h : ∃ N, ∀ a, N ≤ a → m.fifos a = none ∧ m.items a = none ∧ m.ops a = none then
    ⟨h.choose, h.choose, h.choose⟩ else ⟨0, 0, 0⟩, fun n m h => ?_⟩
  obtain ⟨h1, h2, h3⟩ := h.choose_spec _ (le_refl _)
  simp only [dif_pos h]
  exact ⟨h3, h1, h2⟩

/-- What the examples look at: the operations applied, and for each kind of block the addresses in
use below 9. -/
def look (x : Except Fault (List (TileIndex × List Nat) × Mem Nat)) :
    Option (List (TileIndex × List Nat) × List Nat × List Nat × List Nat) :=
  match x with
  | .error _ => none
  | .ok (r, m) => some (r, (List.range 9).filter (fun a => (m.fifos a).isSome),
      (List.range 9).filter (fun a => (m.items a).isSome), (List.range 9).filter (fun a => (m.ops a).isSome))

/-- An allocator that never uses an address again. -/
def bump : Alloc Nat := fun n _ => ⟨n, n, n⟩

/-- Three dabs for five tiles in all: five operations and items wait in three queues. -/
example : look ((session bump .heavyDebug Surf.demo.tilesOf 10 [.dab 1, .dab 0, .dab 2]).map
      fun x => (x.1, x.2.mem)) = some ([], [0, 1, 4], [0, 1, 2, 3, 4], [0, 1, 2, 3, 4]) := by
  decide +kernel

/-- Sampling a tile releases its queue, the end of the block everything. -/
example : look ((session bump .heavyDebug Surf.demo.tilesOf 10 [.dab 1, .dab 0, .dab 2,
      .sample [⟨0, 0⟩]]).map fun x => (x.1, x.2.mem))
    = some ([(⟨0, 0⟩, [1, 0, 2])], [1, 4], [1, 4], [1, 4]) ∧
    look ((session bump .heavyDebug Surf.demo.tilesOf 10 [.dab 1, .dab 0, .dab 2,
      .sample [⟨0, 0⟩], .endAtomic List.reverse]).map fun x => (x.1, x.2.mem))
    = some ([(⟨0, 0⟩, [1, 0, 2]), (⟨2, 0⟩, [2]), (⟨1, 0⟩, [1]), (⟨0, 0⟩, [])], [], [], []) := by
  constructor <;> decide +kernel

/-- Destroying the surface instead: the operations stay. -/
example : look ((session bump .heavyDebug Surf.demo.tilesOf 10 [.dab 1, .dab 0]).bind
      fun x => (destroy 10 x.2.mem x.2.q).map fun m => (x.1, m)) = some ([], [], [], [0, 1, 2]) := by
  decide +kernel

/-- A tile that is not delivered: operation 0 was taken from the queue and is still allocated. -/
example : look ((session bump .heavyDebug Surf.demo.tilesOf 10 [.dab 1, .dab 0]).bind
      fun x => (processTile 10 false x.2 ⟨0, 0⟩).bind fun y =>
        (run bump .heavyDebug Surf.demo.tilesOf 10 y.2 [.endAtomic id]).map fun z => (z.1, z.2.mem))
    = some ([(⟨0, 0⟩, [0]), (⟨1, 0⟩, [1])], [], [], [0]) := by
  decide +kernel

end Verif.QueueMemory
