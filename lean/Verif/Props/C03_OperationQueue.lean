import Verif.Lemmas.OperationQueue

/-!
# C03, C04, C05: the operation queue
-/

namespace Verif.OpQueue

open Spec.TileMap (InBox)
open Spec.OpQueue (init after OutsOk OutOk Disciplined IsPop farthest)

variable {β : Type}

/-- A history of calls on a new queue. -/
def history (b : Build) (ops : List (Op β)) : Except Fault (List (Out β) × OpQueue β) := do
  let q ← new b
  run b q ops

theorem history_ok {b : Build} {ops : List (Op β)} {os : List (Out β)} {q : OpQueue β}
    (h : history b ops = .ok (os, q)) : OutsOk init ops os ∧ Rel b q (after init ops) := by
  obtain ⟨q0, h0, hrel, _⟩ := new_rel (β := β) b
  simp only [history, h0, bind, Except.bind] at h
  exact run_spec hrel h

/-- **C03.**  For every history of calls on a new queue, over all tiles of the plane, in both build
configurations: the answers are those of the specification (each tile has its own list of waiting
operations, in the order added, untouched by calls for other tiles), or the history ended in one of
the two faults of `operation_queue_add` that `add_outcome` characterises. -/
theorem queue_refines_spec (b : Build) (ops : List (Op β)) :
    match history b ops with
    | .ok (os, _) => OutsOk init ops os
    | .error f => f = .intOverflow ∨ f = .assertFail := by
  obtain ⟨q0, h0, hrel, _⟩ := new_rel (β := β) b
  have key : ∀ (ops : List (Op β)) (q : OpQueue β) (s : Spec.OpQueue.St β), Rel b q s →
      ∀ f, run b q ops = .error f → f = .intOverflow ∨ f = .assertFail := by
    intro ops
    induction ops with
    | nil => intro q s _ f hf; simp [run] at hf
    | cons op ops ih =>
      intro q s hr f hf
      simp only [run, bind, Except.bind] at hf
      split at hf
      · next e he =>
        cases hf
        cases op with
        | add idx o =>
          rcases add_spec hr idx o with ⟨_, h⟩ | ⟨_, _, _, h⟩ | ⟨_, _, q1, h, _⟩ <;>
            simp only [step, h, bind, Except.bind, pure, Except.pure] at he <;> cases he <;> simp
        | pop idx =>
          obtain ⟨q1, h, _⟩ := pop_spec hr idx
          simp only [step, h, bind, Except.bind, pure, Except.pure] at he; cases he
        | peekFirst idx =>
          simp only [step, peekFirst_spec hr, bind, Except.bind, pure, Except.pure] at he; cases he
        | peekLast idx =>
          simp only [step, peekLast_spec hr, bind, Except.bind, pure, Except.pure] at he; cases he
        | getDirty =>
          obtain ⟨l, q1, h, _⟩ := getDirty_spec hr
          simp only [step, h, bind, Except.bind, pure, Except.pure] at he; cases he
        | clearDirty => simp only [step, pure, Except.pure] at he; cases he
      · next v hv =>
        obtain ⟨o, q1⟩ := v
        split at hf
        · next e he => cases hf; exact ih q1 _ (step_spec hr hv).2 f he
        · cases hf
  cases hh : history b ops with
  | ok v => obtain ⟨os, q⟩ := v; exact (history_ok hh).1
  | error f =>
    simp only [history, h0, bind, Except.bind] at hh
    exact key ops q0 _ hrel f hh

/-- Non-vacuity: a history over several tiles, with growth, that does not fault. -/
example : (match history .heavyDebug
      [.add ⟨-1, 0⟩ 1, .add ⟨2, -3⟩ 2, .add ⟨-1, 0⟩ 3, .pop ⟨-1, 0⟩, .peekLast ⟨-1, 0⟩,
        .pop ⟨2, -3⟩, .pop ⟨2, -3⟩, .add ⟨2, -3⟩ 4, .getDirty] with
    | .ok ([.unit, .unit, .unit, .op o1, .op o2, .op o3, .op o4, .unit, .tiles l], _) =>
      decide (o1 = some 1 ∧ o2 = some 3 ∧ o3 = some 2 ∧ o4 = none ∧ l = [⟨-1, 0⟩, ⟨2, -3⟩])
    | _ => false) = true := by
  decide +kernel

/-- **C04.**  After any history in which the marks are cleared only while nothing is waiting
(`TiledSurface` theorems show that drawing and `end_atomic` respect this), the list of dirty tiles
contains every tile that has an operation waiting, and no tile twice. -/
theorem dirty_tiles_complete (b : Build) (ops : List (Op β)) (hd : Disciplined init ops)
    (os : List (Out β)) (q : OpQueue β) (h : history b ops = .ok (os, q)) :
    ∃ l q', q.getDirtyTiles = .ok (l, q') ∧ l.Nodup ∧
      ∀ t, (after init ops).pend t ≠ [] → t ∈ l := by
  have hrel := (history_ok h).2
  obtain ⟨l, q', hl, _, hnd, hmem, _⟩ := getDirty_spec hrel
  refine ⟨l, q', hl, hnd, fun t ht => (hmem t).mpr ?_⟩
  have key : ∀ (ops : List (Op β)) (s : Spec.OpQueue.St β),
      (∀ t, s.pend t ≠ [] → s.marked t) → Disciplined s ops →
      ∀ t, (after s ops).pend t ≠ [] → (after s ops).marked t := by
    intro ops
    induction ops with
    | nil => intro s hs _ t; exact hs t
    | cons op ops ih =>
      intro s hs hdis
      apply ih (Spec.OpQueue.next s op) ?_ hdis.2
      intro t ht
      cases op with
      | add u o =>
        simp only [Spec.OpQueue.next, Spec.OpQueue.setPend] at ht ⊢
        by_cases htu : t = u
        · subst htu
          by_cases hp : s.pend t = []
          · exact Or.inr ⟨rfl, hp⟩
          · exact Or.inl (hs t hp)
        · rw [if_neg htu] at ht; exact Or.inl (hs t ht)
      | pop u =>
        simp only [Spec.OpQueue.next, Spec.OpQueue.setPend] at ht ⊢
        by_cases htu : t = u
        · subst htu
          rw [if_pos rfl] at ht
          apply hs t
          intro hp; rw [hp] at ht; exact ht rfl
        · rw [if_neg htu] at ht; exact hs t ht
      | peekFirst u => exact hs t ht
      | peekLast u => exact hs t ht
      | getDirty => exact hs t ht
      | clearDirty => exact absurd (hdis.1 t) ht
  exact key ops init (fun t ht => absurd rfl ht) hd t ht

example : Disciplined (init : Spec.OpQueue.St Nat)
    [.add ⟨0, 0⟩ 1, .add ⟨5, 5⟩ 2, .pop ⟨0, 0⟩, .pop ⟨5, 5⟩, .clearDirty, .add ⟨0, 0⟩ 3] := by
  simp only [Disciplined, true_and, and_true]
  intro t
  simp only [Spec.OpQueue.next, Spec.OpQueue.setPend, init]
  by_cases h1 : t = ⟨5, 5⟩ <;> by_cases h2 : t = ⟨0, 0⟩ <;> simp [h1, h2]

/-- **C05, exact outcome.**  After any history, adding an operation to a tile
* overflows `int` exactly if the tile is `farthest` (20480 tiles; 23170 with `HEAVY_DEBUG`) or more
  away from the origin;
* aborts on an assertion exactly if it lies in the current map, has nothing waiting, and every tile
  of the map is marked;
* succeeds otherwise (in particular it never writes past the end of the dirty-tile array). -/
theorem add_outcome (b : Build) (ops : List (Op β)) (os : List (Out β)) (q : OpQueue β)
    (h : history b ops = .ok (os, q)) (idx : TileIndex) (op : β) :
    (q.add b idx op = .error .intOverflow ↔
      ¬ InBox (farthest b) idx) ∧
    (q.add b idx op = .error .assertFail ↔
      InBox q.tileMap.size idx ∧ (after init ops).pend idx = [] ∧
        ∀ t, InBox q.tileMap.size t → (after init ops).marked t) ∧
    (∀ f, q.add b idx op = .error f → f = .intOverflow ∨ f = .assertFail) := by
  have hrel := (history_ok h).2
  have hle := (sizeOk_le hrel.size).2
  rcases add_spec hrel idx op with ⟨hb, he⟩ | ⟨hin, hp, hall, he⟩ | ⟨hb, hn, q1, he, _⟩
  · rw [he]
    refine ⟨⟨fun _ => hb, fun _ => rfl⟩, ⟨fun hc => by simp at hc, ?_⟩, ?_⟩
    · rintro ⟨hin, _⟩; exact absurd (TileMap.inBox_mono hle hin) hb
    · intro f hf; cases hf; simp
  · rw [he]
    refine ⟨⟨fun hc => by simp at hc, fun hc => ?_⟩, ⟨fun _ => ⟨hin, hp, hall⟩, fun _ => rfl⟩, ?_⟩
    · exact absurd (TileMap.inBox_mono hle hin) hc
    · intro f hf; cases hf; simp
  · rw [he]
    refine ⟨⟨fun hc => by simp at hc, fun hc => absurd hb hc⟩,
      ⟨fun hc => by simp at hc, fun hc => absurd hc hn⟩, ?_⟩
    intro f hf; cases hf

/-- The history that breaks C05: one operation for each tile of the initial map (400 tiles), then
one tile is processed early (as `get_color` does) and receives another operation. -/
def fullMapHistory (b : Build) (x : β) : List (Op β) :=
  (TileMap.allIndices b.initSize).map (fun t => Op.add t x) ++
    [.pop ⟨0, 0⟩, .pop ⟨0, 0⟩, .add ⟨0, 0⟩ x]

/-- **C05 is false.**  That history aborts on `assert(self->dirty_tiles_n < ...)`. -/
theorem add_can_abort (b : Build) (x : β) :
    history b (fullMapHistory b x) = .error .assertFail := by
  obtain ⟨q0, h0, hr0, hsz0⟩ := new_rel (β := β) b
  obtain ⟨os, q1, s1, hrun, hr1, -, hsz1, hm1, hp1⟩ := fill_ok x (TileMap.allIndices b.initSize) q0 _
    hr0 (allIndices_nodup _) (by
      intro t ht
      exact ⟨by rw [hsz0]; exact TileMap.mem_allIndices.mp ht, by simp [init], rfl⟩)
  have hbox : InBox b.initSize ⟨0, 0⟩ := by cases b <;> decide
  obtain ⟨q2, he2, hr2, hsz2⟩ := pop_spec hr1 ⟨0, 0⟩
  obtain ⟨q3, he3, hr3, hsz3⟩ := pop_spec hr2 ⟨0, 0⟩
  have hp : s1.pend ⟨0, 0⟩ = [x] := by rw [hp1, if_pos (TileMap.mem_allIndices.mpr hbox)]
  have hsize : q3.tileMap.size = b.initSize := by rw [hsz3, hsz2, hsz1, hsz0]
  have habort : q3.add b ⟨0, 0⟩ x = .error .assertFail := by
    rcases add_spec hr3 ⟨0, 0⟩ x with ⟨hb, _⟩ | ⟨_, _, _, he⟩ | ⟨_, hn, _⟩
    · exact absurd (TileMap.inBox_mono (sizeOk_le hr3.size).2 (hsize ▸ hbox)) hb
    · exact he
    · exfalso
      apply hn
      refine ⟨by rw [hsize]; exact hbox, ?_, ?_⟩
      · simp [Spec.OpQueue.next, Spec.OpQueue.setPend, hp]
      · intro t ht
        rw [hsize] at ht
        simp only [Spec.OpQueue.next]
        exact (hm1 t).mpr (Or.inr (TileMap.mem_allIndices.mpr ht))
  simp only [history, fullMapHistory, h0, bind, Except.bind, run_append, hrun, run, step, he2, he3,
    habort, pure, Except.pure]

example : (fullMapHistory .normal 0).length = 403 := by decide +kernel

/-- **C05 is false, second way.**  The very first operation overflows `int` if its tile is at
distance `farthest` (20480 tiles, about 1.3 million pixels) or more. -/
theorem add_can_overflow (b : Build) (idx : TileIndex) (hfar : ¬ InBox (farthest b) idx) (op : β) :
    history b [Op.add idx op] = .error .intOverflow := by
  obtain ⟨q0, h0, hr, _⟩ := new_rel (β := β) b
  rcases add_spec hr idx op with ⟨_, he⟩ | ⟨hin, _⟩ | ⟨hin, _⟩
  · simp only [history, h0, bind, Except.bind, run, step, he]
  · exact absurd (TileMap.inBox_mono (sizeOk_le hr.size).2 hin) hfar
  · exact absurd hin hfar

example : ¬ InBox (farthest .normal) ⟨20480, 0⟩ := by decide

/-- **C05, what holds.**  If no operation was taken out of the queue since the marks were last
cleared (or since the start), adding an operation to any tile within 20480 tiles of the origin
succeeds.  Missing from the full property: histories with early processing, for which it is false
(`add_can_abort`), and far away tiles (`add_can_overflow`). -/
theorem add_never_aborts_partial (b : Build) (pre mid : List (Op β))
    (hpre : pre = [] ∨ ∃ p, pre = p ++ [.clearDirty]) (hmid : ∀ op ∈ mid, ¬ IsPop op)
    (os : List (Out β)) (q : OpQueue β) (h : history b (pre ++ mid) = .ok (os, q))
    (idx : TileIndex) (hidx : InBox 20480 idx) (op : β) :
    ∃ q', q.add b idx op = .ok q' := by
  have hrel := (history_ok h).2
  -- every marked tile has something waiting
  have key : ∀ (mid : List (Op β)) (s : Spec.OpQueue.St β), (∀ op ∈ mid, ¬ IsPop op) →
      (∀ t, s.marked t → s.pend t ≠ []) →
      ∀ t, (after s mid).marked t → (after s mid).pend t ≠ [] := by
    intro mid
    induction mid with
    | nil => intro s _ hs; exact hs
    | cons o mid ih =>
      intro s hnp hs
      apply ih (Spec.OpQueue.next s o) (fun o' ho' => hnp o' (by simp [ho']))
      intro t ht
      cases o with
      | add u x =>
        simp only [Spec.OpQueue.next, Spec.OpQueue.setPend] at ht ⊢
        by_cases htu : t = u
        · simp [htu]
        · rw [if_neg htu]
          rcases ht with ht | ⟨ht, _⟩
          · exact hs t ht
          · exact absurd ht htu
      | pop u => exact absurd trivial (hnp (.pop u) (by simp))
      | peekFirst u => exact hs t ht
      | peekLast u => exact hs t ht
      | getDirty => exact hs t ht
      | clearDirty => exact absurd ht (by simp [Spec.OpQueue.next])
  have hmarked : ∀ t, (after init (pre ++ mid)).marked t → (after init (pre ++ mid)).pend t ≠ [] := by
    have : after init (pre ++ mid) = after (after (init (β := β)) pre) mid := by
      simp [after, List.foldl_append]
    rw [this]
    apply key mid _ hmid
    rcases hpre with rfl | ⟨p, rfl⟩
    · intro t ht; exact absurd ht (by simp [after, init])
    · intro t ht
      exact absurd ht (by simp [after, List.foldl_append, Spec.OpQueue.next])
  have hbox : InBox (farthest b) idx := by
    cases b
    · exact hidx
    · exact TileMap.inBox_mono (by simp [farthest]) hidx
  rcases add_spec hrel idx op with ⟨hb, _⟩ | ⟨hin, hp, hall, _⟩ | ⟨_, _, q1, he, _⟩
  · exact absurd hbox hb
  · exact absurd hp (hmarked idx (hall idx hin))
  · exact ⟨q1, he⟩

/-- Non-vacuity: all tiles of the initial map can be filled in one go. -/
example (b : Build) : ∃ os q,
    history b ([] ++ (TileMap.allIndices b.initSize).map (fun t => Op.add t 0)) = .ok (os, q)
    ∧ ∀ op ∈ (TileMap.allIndices b.initSize).map (fun t => Op.add t 0), ¬ IsPop op := by
  obtain ⟨q0, h0, hr0, hsz0⟩ := new_rel (β := Nat) b
  obtain ⟨os, q1, s1, hrun, -⟩ := fill_ok 0 (TileMap.allIndices b.initSize) q0 _
    hr0 (allIndices_nodup _) (by
      intro t ht
      exact ⟨by rw [hsz0]; exact TileMap.mem_allIndices.mp ht, by simp [init], rfl⟩)
  refine ⟨os, q1, ?_, ?_⟩
  · simp only [history, h0, bind, Except.bind, List.nil_append]; exact hrun
  · intro op hop
    simp only [List.mem_map] at hop
    obtain ⟨t, _, rfl⟩ := hop
    simp [IsPop]

end Verif.OpQueue
