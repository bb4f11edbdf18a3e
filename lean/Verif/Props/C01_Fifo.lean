import Verif.Lemmas.Fifo

/-!
# C01: queued drawing is first-in first-out
-/

namespace Verif.Fifo

variable {α : Type}

/-- What the client asked for, with the allocator's choices forgotten. -/
def Op.spec : Op α → Spec.Fifo.Op α
  | .push _ d => .push d
  | .pop => .pop
  | .peekFirst => .peekFirst
  | .peekLast => .peekLast

/-- **C01.**  From a new queue, on any heap, every history of push, pop and peek runs without a
fault (no dangling or NULL pointer is dereferenced, provided `malloc` returns unused addresses),
returns exactly what a list-based queue returns, and never touches a heap cell that it did not
allocate itself. -/
theorem fifo_refines_list (heap : Heap α) (ops : List (Op α))
    (hm : MallocSound ⟨heap, new⟩ ops) :
    ∃ s', run ⟨heap, new⟩ ops = some (Spec.Fifo.outs [] (ops.map Op.spec), s') ∧
      (∃ xs, Holds s' xs ∧ xs.map Prod.snd = Spec.Fifo.final [] (ops.map Op.spec)) ∧
      (∀ b, heap b ≠ none → s'.heap b = heap b) := by
  -- generalise over the contents and the cells owned by the environment
  suffices H : ∀ (ops : List (Op α)) (s : State α) (xs : List (Nat × α)), Holds s xs →
      MallocSound s ops →
      ∃ s', run s ops = some (Spec.Fifo.outs (xs.map Prod.snd) (ops.map Op.spec), s') ∧
        (∃ ys, Holds s' ys ∧ ys.map Prod.snd = Spec.Fifo.final (xs.map Prod.snd) (ops.map Op.spec)) ∧
        (∀ b, s.heap b ≠ none → b ∉ xs.map Prod.fst → s'.heap b = s.heap b) by
    obtain ⟨s', h1, h2, h3⟩ := H ops ⟨heap, new⟩ [] ⟨rfl, by simp, rfl⟩ hm
    exact ⟨s', h1, h2, fun b hb => h3 b hb (by simp)⟩
  intro ops
  induction ops with
  | nil => intro s xs hs _; exact ⟨s, rfl, ⟨xs, hs, rfl⟩, fun _ _ _ => rfl⟩
  | cons op ops ih =>
    intro s xs hs hmall
    obtain ⟨hop, hmall'⟩ := hmall
    cases op with
    | push addr d =>
      obtain ⟨a, rfl, hfresh⟩ := hop
      obtain ⟨s1, hpush, hs1, hframe⟩ := push_holds hs a d hfresh
      have hstep : step s (.push (some a) d) = some (none, s1) := by simp [step, hpush]
      obtain ⟨s', hrun, ⟨ys, hys, hysv⟩, hfr⟩ := ih s1 _ hs1 (hmall' _ _ hstep)
      refine ⟨s', ?_, ⟨ys, hys, ?_⟩, ?_⟩
      · simp only [run, hstep, hrun]
        simp [Spec.Fifo.outs, Op.spec, Spec.Fifo.out, Spec.Fifo.next]
      · simpa [Spec.Fifo.final, Op.spec, Spec.Fifo.next] using hysv
      · intro b hb hbx
        have hba : b ≠ a := fun h => hb (h ▸ hfresh)
        have := hframe b hba hbx
        rw [hfr b (by rw [this]; exact hb) (by simp at hbx ⊢; exact ⟨hbx, hba⟩), this]
    | pop =>
      obtain ⟨s1, hpop, hs1, hframe, -⟩ := pop_holds hs
      have hstep : step s .pop = some ((xs.map Prod.snd).head?, s1) := hpop
      obtain ⟨s', hrun, ⟨ys, hys, hysv⟩, hfr⟩ := ih s1 _ hs1 (hmall' _ _ hstep)
      refine ⟨s', ?_, ⟨ys, hys, ?_⟩, ?_⟩
      · simp only [run, hstep, hrun]
        simp [Spec.Fifo.outs, Op.spec, Spec.Fifo.out, Spec.Fifo.next]
      · simpa [Spec.Fifo.final, Op.spec, Spec.Fifo.next] using hysv
      · intro b hb hbx
        have := hframe b hbx
        rw [hfr b (by rw [this]; exact hb) (by
          intro hmem; apply hbx
          simp only [List.mem_map] at hmem ⊢
          obtain ⟨x, hx, rfl⟩ := hmem
          exact ⟨x, List.mem_of_mem_tail hx, rfl⟩), this]
    | peekFirst =>
      have hstep : step s .peekFirst = some ((xs.map Prod.snd).head?, s) := by
        simp [step, peekFirst_holds hs]
      obtain ⟨s', hrun, ⟨ys, hys, hysv⟩, hfr⟩ := ih s _ hs (hmall' _ _ hstep)
      refine ⟨s', ?_, ⟨ys, hys, ?_⟩, hfr⟩
      · simp only [run, hstep, hrun]
        simp [Spec.Fifo.outs, Op.spec, Spec.Fifo.out, Spec.Fifo.next]
      · simpa [Spec.Fifo.final, Op.spec, Spec.Fifo.next] using hysv
    | peekLast =>
      have hstep : step s .peekLast = some ((xs.map Prod.snd).getLast?, s) := by
        simp [step, peekLast_holds hs]
      obtain ⟨s', hrun, ⟨ys, hys, hysv⟩, hfr⟩ := ih s _ hs (hmall' _ _ hstep)
      refine ⟨s', ?_, ⟨ys, hys, ?_⟩, hfr⟩
      · simp only [run, hstep, hrun]
        simp [Spec.Fifo.outs, Op.spec, Spec.Fifo.out, Spec.Fifo.next]
      · simpa [Spec.Fifo.final, Op.spec, Spec.Fifo.next] using hysv

/-- The allocator reusing a freed address: the hypotheses of `fifo_refines_list` hold and the
history is non-trivial (drained to empty, refilled at the same address). -/
example : MallocSound (⟨fun _ => none, new⟩ : State Nat)
    [.push (some 7) 10, .push (some 8) 11, .pop, .pop, .pop, .push (some 7) 12, .peekLast] := by
  simp [MallocSound, step, push, pop, peekLast, new, Heap.set]

example : (run (⟨fun _ => none, new⟩ : State Nat)
    [.push (some 7) 10, .push (some 8) 11, .pop, .pop, .pop, .push (some 7) 12, .peekLast]).map
      Prod.fst = some [none, none, some 10, some 11, none, none, some 12] := by
  decide

/-- **C01, disposal.**  `fifo_free` on a queue reached by any history terminates, frees each item
of the queue exactly once and nothing else. -/
theorem fifo_free_exact (s : State α) (xs : List (Nat × α)) (hs : Holds s xs) :
    ∃ h', freeLoop xs.length s.heap s.q.first = some h' ∧
      (∀ b ∈ xs.map Prod.fst, h' b = none) ∧ (∀ b, b ∉ xs.map Prod.fst → h' b = s.heap b) :=
  freeLoop_chain xs s.heap s.q.first xs.length hs.1 hs.2.1 (Nat.le_refl _)

example : Holds (⟨fun b => if b = 3 then some ⟨none, 5⟩ else none, ⟨some 3, some 3, 0⟩⟩ : State Nat)
    [(3, 5)] := by
  simp [Holds, Chain]

end Verif.Fifo
