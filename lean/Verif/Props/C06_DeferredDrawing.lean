import Verif.Lemmas.TiledSurface

/-!
# C06, C07, C08, C52: deferred drawing

`k : DabKind D T` stands for any kind of dab and tile; `hk` says that a dab is queued at most once per
tile (true of the concrete code, see `Verif.Props.C11`).
-/

namespace Verif.Surf

open Spec.Surf (drawNow final outs OrderOk)
open Spec.TileMap (InBox)

variable {D T : Type}

/-- A session on a new surface over the canvas `c`. -/
def session (b : Build) (k : DabKind D T) (c : TileIndex → T) (es : List (Event D)) :
    Except Fault (List (List T) × Surf D T) := do
  let s ← init b c
  run b k s es

theorem session_stands {b : Build} {k : DabKind D T} (hk : ∀ d, (k.tilesOf d).Nodup)
    {c : TileIndex → T} {es : List (Event D)} (ho : ∀ e ∈ es, OrderOk e) {os : List (List T)}
    {s : Surf D T} (h : session b k c es = .ok (os, s)) :
    os = outs k c es ∧ ∃ st, Stands b k s st (final k c es) := by
  obtain ⟨s0, st0, h0, hst, _⟩ := init_stands b k c
  simp only [session, h0, bind, Except.bind] at h
  exact stands_run hk es s0 s st0 c os hst ho h

/-- **C06 and C08.**  For every session of dabs, colour sampling and finished blocks on any canvas:
whenever the session does not fault, everything sampled along the way is what sampling would have read
had every dab been applied at once, and after finishing the last block the canvas is the one obtained
by applying every dab at once. -/
theorem deferred_eq_immediate (b : Build) (k : DabKind D T) (hk : ∀ d, (k.tilesOf d).Nodup)
    (c : TileIndex → T) (es : List (Event D)) (order : List TileIndex → List TileIndex)
    (ho : ∀ e ∈ es ++ [.endAtomic order], OrderOk e) (os : List (List T)) (s : Surf D T)
    (h : session b k c (es ++ [.endAtomic order]) = .ok (os, s)) :
    os = outs k c (es ++ [.endAtomic order]) ∧ s.canvas = final k c es := by
  obtain ⟨s0, st0, h0, hst, _⟩ := init_stands b k c
  refine ⟨(session_stands hk ho h).1, ?_⟩
  simp only [session, h0, bind, Except.bind] at h
  -- cut the run before the last event
  have cut : ∀ (es : List (Event D)) (s0 : Surf D T) (os : List (List T)),
      run b k s0 (es ++ [.endAtomic order]) = .ok (os, s) →
      ∃ os1 s1, run b k s0 es = .ok (os1, s1) ∧ endAtomic k (fun _ => true) order s1 = .ok s := by
    intro es
    induction es with
    | nil =>
      intro s0 os h
      refine ⟨[], s0, rfl, ?_⟩
      simp only [List.nil_append, run, step, bind, Except.bind] at h
      cases hx : endAtomic k (fun _ => true) order s0 with
      | error e => rw [hx] at h; cases h
      | ok v => rw [hx] at h; simp only [pure, Except.pure] at h; cases h; rfl
    | cons e es ih =>
      intro s0 os h
      simp only [List.cons_append, run, bind, Except.bind] at h ⊢
      cases hs : step b k s0 e with
      | error x => rw [hs] at h; cases h
      | ok v =>
        rw [hs] at h
        simp only at h
        cases hr : run b k v.2 (es ++ [.endAtomic order]) with
        | error x => rw [hr] at h; cases h
        | ok w =>
          rw [hr] at h; simp only [pure, Except.pure] at h; cases h
          obtain ⟨os1, s1, h1, h2⟩ := ih v.2 w.1 hr
          exact ⟨v.1 :: os1, s1, by simp only [h1, pure, Except.pure], h2⟩
  obtain ⟨os1, s1, h1, h2⟩ := cut es s0 os h
  obtain ⟨-, st1, hst1⟩ := stands_run hk es s0 s1 st0 c os1 hst
    (fun e he => ho e (by simp [he])) h1
  obtain ⟨s', st', he, -, -, -, hc⟩ := stands_end hst1 order (ho (.endAtomic order) (by simp))
  rw [he] at h2; cases h2
  exact hc

/-- A concrete kind of dab for the examples: dab `n` touches tiles `(0,0)` and `(n,0)` and appends
itself to the tile. -/
def demo : DabKind Nat (List Nat) where
  tilesOf n := if n = 0 then [⟨0, 0⟩] else [⟨0, 0⟩, ⟨n, 0⟩]
  processOp _ d v := v ++ [d]

theorem demo_nodup : ∀ d, (demo.tilesOf d).Nodup := by
  intro d
  unfold demo
  by_cases h : d = 0
  · simp [h]
  · simp only [if_neg h, List.nodup_cons, List.mem_singleton, TileIndex.mk.injEq, and_true]
    refine ⟨fun hc => h ?_, by simp⟩
    have : (0 : Int) = (d : Int) := hc
    omega

/-- Non-vacuity: a session with two blocks, a sample in the middle and tiles processed in reverse. -/
example : (match session .heavyDebug demo (fun _ => [])
      [.dab 1, .dab 0, .sample [⟨0, 0⟩], .dab 2, .endAtomic List.reverse, .dab 1, .endAtomic id] with
    | .ok (os, s) => decide (os = [[], [], [[1, 0]], [], [], [], []]) &&
        decide (s.canvas ⟨0, 0⟩ = [1, 0, 2, 1] ∧ s.canvas ⟨1, 0⟩ = [1, 1] ∧ s.canvas ⟨2, 0⟩ = [2])
    | _ => false) = true := by
  decide +kernel

/-- **C06, totality (partial).**  A session without colour sampling, whose dabs stay within 20480
tiles of the origin, never faults.  (With sampling inside a block the abort of
`OpQueue.add_can_abort` is possible, and only that, see `OpQueue.add_outcome`.) -/
theorem deferred_never_faults_partial (b : Build) (k : DabKind D T) (hk : ∀ d, (k.tilesOf d).Nodup)
    (c : TileIndex → T) (es : List (Event D)) (ho : ∀ e ∈ es, OrderOk e)
    (hs : ∀ e ∈ es, match e with
      | .dab d => ∀ t ∈ k.tilesOf d, InBox 20480 t
      | .sample _ => False
      | .endAtomic _ => True) :
    ∃ os s, session b k c es = .ok (os, s) := by
  obtain ⟨s0, st0, h0, hst, _⟩ := init_stands b k c
  have hm0 : ∃ st0, Stands b k s0 st0 c ∧ ∀ t, st0.marked t → st0.pend t ≠ [] := by
    obtain ⟨q, hq, hr, _⟩ := OpQueue.new_rel (β := D) b
    have : s0 = ⟨q, c⟩ := by
      simp only [init, hq, bind, Except.bind, pure, Except.pure] at h0; cases h0; rfl
    subst this
    exact ⟨Spec.OpQueue.init, ⟨hr, fun _ => rfl, fun t ht => absurd rfl ht⟩,
      fun t ht => absurd ht (by simp [Spec.OpQueue.init])⟩
  suffices H : ∀ (es : List (Event D)) (s : Surf D T) (c : TileIndex → T),
      (∀ e ∈ es, OrderOk e) → (∀ e ∈ es, match e with
      | .dab d => ∀ t ∈ k.tilesOf d, InBox 20480 t
      | .sample _ => False
      | .endAtomic _ => True) →
      (∃ st, Stands b k s st c ∧ ∀ t, st.marked t → st.pend t ≠ []) →
      ∃ os s', run b k s es = .ok (os, s') by
    simp only [session, h0, bind, Except.bind]
    exact H es s0 c ho hs hm0
  intro es
  induction es with
  | nil => intro s c _ _ _; exact ⟨[], s, rfl⟩
  | cons e es ih =>
    intro s c ho hs ⟨st, hst, hm⟩
    have hoe := ho e (by simp)
    have hse := hs e (by simp)
    have ih' := fun s1 c1 => ih s1 c1 (fun e he => ho e (by simp [he])) (fun e he => hs e (by simp [he]))
    cases e with
    | dab d =>
      obtain ⟨q', stx, hq', hrx, hmx⟩ := add_fold_succ d (k.tilesOf d) s.queue st hst.rel hm hse
      have hd : drawDab b k s d = .ok { s with queue := q' } := by
        simp only [drawDab, hq', bind, Except.bind]; rfl
      have hex : ∃ st', Stands b k { s with queue := q' } st' (drawNow k c d) ∧
          ∀ t, st'.marked t → st'.pend t ≠ [] := by
        obtain ⟨st', hst'⟩ := stands_dab hst d (hk d) hd
        refine ⟨st', hst', ?_⟩
        intro t ht
        -- `st'` and `stx` describe the same queue
        have hpend : st'.pend t = stx.pend t := by
          by_cases hin : InBox q'.tileMap.size t
          · rw [← hst'.rel.inside t hin, ← hrx.inside t hin]
          · rw [hst'.rel.outside t hin, hrx.outside t hin]
        rw [hpend]
        exact hmx t ((hrx.dirtyMem t).mp ((hst'.rel.dirtyMem t).mpr ht))
      obtain ⟨os, s', hr⟩ := ih' _ _ hex
      exact ⟨[] :: os, s', by simp only [run, step, hd, bind, Except.bind, pure, Except.pure, hr]⟩
    | sample ts => exact absurd hse (by simp)
    | endAtomic order =>
      obtain ⟨s1, st1, he, hst1, _, hnm, _⟩ := stands_end hst order hoe
      obtain ⟨os, s', hr⟩ := ih' s1 c ⟨st1, hst1, fun t ht => absurd ht (hnm t)⟩
      exact ⟨[] :: os, s', by simp only [run, step, he, bind, Except.bind, pure, Except.pure, hr]⟩

/-- **C07, order.**  Two sessions with the same dabs that process the tiles in different orders leave
the same canvas. -/
theorem processing_order_irrelevant (b b' : Build) (k : DabKind D T)
    (hk : ∀ d, (k.tilesOf d).Nodup) (c : TileIndex → T) (es : List (Event D))
    (o o' : List TileIndex → List TileIndex)
    (ho : ∀ e ∈ es ++ [.endAtomic o], OrderOk e) (ho' : OrderOk (.endAtomic o' : Event D))
    (r r' : List (List T)) (s s' : Surf D T)
    (h : session b k c (es ++ [.endAtomic o]) = .ok (r, s))
    (h' : session b' k c (es ++ [.endAtomic o']) = .ok (r', s')) : s.canvas = s'.canvas := by
  rw [(deferred_eq_immediate b k hk c es o ho r s h).2,
    (deferred_eq_immediate b' k hk c es o' (by
      intro e he
      simp only [List.mem_append, List.mem_singleton] at he
      rcases he with he | rfl
      · exact ho e (by simp [he])
      · exact ho') r' s' h').2]

/-- **C07, threads.**  After any session, let the tiles of the dirty list be processed by concurrent
workers, their steps interleaved by any schedule.  No step faults; every schedule that gives each
worker enough steps (`2 n + 3` for `n` waiting operations) lets all of them finish; and whenever all
of them have finished, the canvas is the one obtained by applying every dab at once. -/
theorem interleaving_irrelevant (b : Build) (k : DabKind D T) (hk : ∀ d, (k.tilesOf d).Nodup)
    (c : TileIndex → T) (es : List (Event D)) (ho : ∀ e ∈ es, OrderOk e)
    (os : List (List T)) (s : Surf D T) (h : session b k c es = .ok (os, s)) :
    ∃ tiles q, s.queue.getDirtyTiles = .ok (tiles, q) ∧ tiles.Nodup ∧
      ∀ sched : List TileIndex, (∀ t ∈ sched, t ∈ tiles) →
        ∃ p, sched.foldlM (micro k) (parallelStart { s with queue := q }) = .ok p ∧
          ((∀ t ∈ tiles, 2 * waiting q t + 3 ≤ sched.count t) →
            ∀ t ∈ tiles, p.worker t = .finished) ∧
          ((∀ t ∈ tiles, p.worker t = .finished) → p.canvas = final k c es) := by
  obtain ⟨-, st, hst⟩ := session_stands hk ho h
  obtain ⟨l, q, hl, hr, hnd, hmem, -⟩ := OpQueue.getDirty_spec hst.rel
  refine ⟨l, q, hl, hnd, ?_⟩
  intro sched hsched
  have hpi : PInv b k (parallelStart { s with queue := q }) st (final k c es) := ⟨hr, hst.eq⟩
  obtain ⟨p, st', he, hp', hm', hf, ht⟩ := micros_ok sched _ st _ hpi
  refine ⟨p, he, ?_, ?_⟩
  · intro hcount t htl
    have h1 := ht t
    have h2 := hcount t htl
    have hw : waiting q t = (st.pend t).length := waiting_eq hr t
    rw [hw] at h2
    have : todo (st'.pend t).length (p.worker t) = 0 := by
      have h3 : todo (st.pend t).length ((parallelStart { s with queue := q }).worker t)
          = 2 * (st.pend t).length + 3 := rfl
      omega
    cases hx : p.worker t <;> rw [hx] at this <;> simp [todo] at this
  · intro hfin
    funext t
    have hi := hp'.inv t
    by_cases htl : t ∈ l
    · rw [hfin t htl] at hi; exact hi.2
    · obtain ⟨hp, hc, hw⟩ := hf t (fun hx => htl (hsched t hx))
      have hpend : st.pend t = [] := by
        by_contra hc'
        exact htl ((hmem t).mpr (hst.marked t hc'))
      rw [hw] at hi
      simp only [parallelStart, WorkerInv] at hi
      rw [hp, hpend] at hi
      exact hi

/-- Non-vacuity: two dirty tiles, steps of the two workers alternating. -/
example : (match session .heavyDebug demo (fun _ => []) [.dab 1, .dab 0] with
    | .ok (_, s) =>
      match ([⟨0, 0⟩, ⟨1, 0⟩, ⟨0, 0⟩, ⟨1, 0⟩, ⟨0, 0⟩, ⟨1, 0⟩, ⟨0, 0⟩, ⟨1, 0⟩, ⟨0, 0⟩, ⟨1, 0⟩,
          ⟨0, 0⟩, ⟨0, 0⟩] : List TileIndex).foldlM (micro demo) (parallelStart s) with
      | .ok p => decide (p.canvas ⟨0, 0⟩ = [1, 0] ∧ p.canvas ⟨1, 0⟩ = [1])
      | _ => false
    | _ => false) = true := by
  decide +kernel

/-- **C08, sampling is transparent.**  Inserting colour sampling anywhere in a session does not change
the final canvas: `es'` is `es` without its sampling events. -/
theorem sampling_does_not_change_canvas (b : Build) (k : DabKind D T)
    (hk : ∀ d, (k.tilesOf d).Nodup) (c : TileIndex → T) (es : List (Event D))
    (order : List TileIndex → List TileIndex) (ho : ∀ e ∈ es ++ [.endAtomic order], OrderOk e)
    (r r' : List (List T)) (s s' : Surf D T)
    (h : session b k c (es ++ [.endAtomic order]) = .ok (r, s))
    (h' : session b k c (es.filter (fun e => match e with | .sample _ => false | _ => true)
      ++ [.endAtomic order]) = .ok (r', s')) :
    s.canvas = s'.canvas := by
  rw [(deferred_eq_immediate b k hk c es order ho r s h).2,
    (deferred_eq_immediate b k hk c _ order (by
      intro e he
      simp only [List.mem_append, List.mem_filter, List.mem_singleton] at he
      rcases he with he | rfl
      · exact ho e (by simp [he.1])
      · exact ho _ (by simp)) r' s' h').2]
  have key : ∀ (es : List (Event D)) (c : TileIndex → T), final k c es
      = final k c (es.filter (fun e => match e with | .sample _ => false | _ => true)) := by
    intro es
    induction es with
    | nil => intro c; rfl
    | cons e es ih =>
      intro c
      cases e with
      | dab d => simpa [final, List.filter, Spec.Surf.next] using ih (drawNow k c d)
      | sample ts => simpa [final, List.filter, Spec.Surf.next] using ih c
      | endAtomic o => simpa [final, List.filter, Spec.Surf.next] using ih c
  exact key es c

/-- **C52, what holds.**  Finishing a block with a backend that fails for some tiles: the other tiles
end up exactly as if every dab had been applied at once, the failing tiles keep their old pixels.
Missing from the full property: the failing tiles are not repaired later, which is false
(`failed_tile_is_never_repaired`). -/
theorem failing_backend_partial (b : Build) (k : DabKind D T) (hk : ∀ d, (k.tilesOf d).Nodup)
    (c : TileIndex → T) (es : List (Event D)) (ho : ∀ e ∈ es, OrderOk e)
    (os : List (List T)) (s : Surf D T) (h : session b k c es = .ok (os, s))
    (avail : TileIndex → Bool) :
    ∃ s', endAtomic k avail id s = .ok s' ∧
      ∀ t, s'.canvas t = if avail t then final k c es t else s.canvas t := by
  obtain ⟨-, st, hst⟩ := session_stands hk ho h
  obtain ⟨l, q, hl, hr, hnd, hmem, -⟩ := OpQueue.getDirty_spec hst.rel
  obtain ⟨s', st', he, hr', hm', hp', hc'⟩ := processAll_avail k avail l { s with queue := q } st hr hnd
  refine ⟨{ s' with queue := s'.queue.clearDirtyTiles }, ?_, ?_⟩
  · simp only [endAtomic, hl, bind, Except.bind, id, he]; rfl
  · intro t
    simp only [hc' t]
    by_cases ha : avail t
    · simp only [ha, and_true, if_true]
      split
      · exact hst.eq t
      · next hn =>
        have hpend : st.pend t = [] := by
          by_contra hx; exact hn ((hmem t).mpr (hst.marked t hx))
        have := hst.eq t
        rw [hpend] at this; exact this
    · simp [ha]

/-- **C52 is false.**  Let two or more dabs wait for a tile when the backend fails to deliver it at the
end of the block.  From then on the tile is never painted again: whatever dabs are drawn (on this tile
or elsewhere) and however many blocks are finished with a backend that works again, its pixels do not
change. -/
theorem failed_tile_is_never_repaired (b : Build) (k : DabKind D T)
    (hk : ∀ d, (k.tilesOf d).Nodup) (c : TileIndex → T) (es0 : List (Event D))
    (ho : ∀ e ∈ es0, OrderOk e) (os0 : List (List T)) (s s1 : Surf D T)
    (h0 : session b k c es0 = .ok (os0, s)) (t : TileIndex)
    (hw2 : 2 ≤ waiting s.queue t) (avail : TileIndex → Bool) (hf : avail t = false)
    (h1 : endAtomic k avail id s = .ok s1)
    (es : List (Event D)) (hes : ∀ e ∈ es, match e with | .sample _ => False | _ => OrderOk e)
    (os : List (List T)) (s2 : Surf D T) (hrun : run b k s1 es = .ok (os, s2)) :
    s2.canvas t = s.canvas t := by
  obtain ⟨-, st, hst⟩ := session_stands hk ho h0
  have hr := hst.rel
  have h2 : 2 ≤ (st.pend t).length := by rw [waiting_eq hr t] at hw2; exact hw2
  -- state after the failing block: something waits for `t`, and `t` is not marked
  obtain ⟨l, q, hl, hrq, hnd, hmem, -⟩ := OpQueue.getDirty_spec hr
  obtain ⟨s', st', he, hr', hm', hp', hc'⟩ :=
    processAll_avail k avail l { s with queue := q } st hrq hnd
  have hs1 : s1 = { s' with queue := s'.queue.clearDirtyTiles } := by
    simp only [endAtomic, hl, bind, Except.bind, id, he, pure, Except.pure] at h1
    cases h1; rfl
  have hc1 : s1.canvas t = s.canvas t := by
    rw [hs1]; simp only [hc' t, hf]; simp
  have hex : ∃ st1, OpQueue.Rel b s1.queue st1 ∧ st1.pend t ≠ [] ∧ ¬ st1.marked t := by
    refine ⟨Spec.OpQueue.next st' .clearDirty, by rw [hs1]; exact OpQueue.clear_rel hr', ?_, ?_⟩
    · simp only [Spec.OpQueue.next, hp' t, hf]
      intro hc
      split at hc
      · simp only [Bool.false_eq_true, if_false] at hc
        have := congrArg List.length hc
        simp at this; omega
      · rw [hc] at h2; simp at h2
    · simp [Spec.OpQueue.next]
  rw [← hc1]
  clear hc1 hs1 h1 hc' hp' hm' hr' he hmem hnd hrq hl h2 hw2 hr hf hst h0
  -- this is preserved by dabs and by finished blocks
  suffices H : ∀ (es : List (Event D)) (s1 s2 : Surf D T) (os : List (List T)),
      (∀ e ∈ es, match e with | .sample _ => False | _ => OrderOk e) →
      run b k s1 es = .ok (os, s2) →
      (∃ st1, OpQueue.Rel b s1.queue st1 ∧ st1.pend t ≠ [] ∧ ¬ st1.marked t) →
      s2.canvas t = s1.canvas t from H es s1 s2 os hes hrun hex
  intro es
  induction es with
  | nil => intro s1 s2 os _ hrun _; simp only [run] at hrun; cases hrun; rfl
  | cons e es ih =>
    intro s1 s2 os hes hrun ⟨st1, hr1, hp1, hm1⟩
    simp only [run, bind, Except.bind] at hrun
    split at hrun
    · cases hrun
    next v hv =>
      obtain ⟨o, sa⟩ := v
      split at hrun
      · cases hrun
      next w hw =>
        obtain ⟨os', sb⟩ := w
        simp only [pure, Except.pure] at hrun
        cases hrun
        have hstep : sa.canvas t = s1.canvas t ∧
            ∃ sta, OpQueue.Rel b sa.queue sta ∧ sta.pend t ≠ [] ∧ ¬ sta.marked t := by
          have hee := hes e (by simp)
          cases e with
          | dab d =>
            simp only [step, drawDab, bind, Except.bind] at hv
            split at hv
            · cases hv
            next x hx =>
              split at hx
              · cases hx
              next q' hq' =>
                simp only [pure, Except.pure] at hv hx; cases hx; cases hv
                obtain ⟨sta, hra, hfr⟩ := add_fold_frame d _ _ _ st1 hr1 hq'
                obtain ⟨ha, hb⟩ := hfr t hp1
                exact ⟨rfl, sta, hra, ha, fun hc => hm1 (hb.mp hc)⟩
          | sample ts => exact absurd hee (by simp)
          | endAtomic order =>
            obtain ⟨l, q, hl, hrq, hnd, hmem, -⟩ := OpQueue.getDirty_spec hr1
            have hperm : (order l).Perm l := hee l
            obtain ⟨s', st', he, hr', hm', hp', hc'⟩ :=
              processAll_avail k (fun _ => true) (order l) { s1 with queue := q } st1 hrq
                (hperm.nodup_iff.mpr hnd)
            simp only [step, endAtomic, hl, bind, Except.bind, he, pure, Except.pure] at hv
            cases hv
            have hnt : t ∉ order l := fun hc => hm1 ((hmem t).mp (hperm.subset hc))
            refine ⟨by simp [hc' t, hnt], Spec.OpQueue.next st' .clearDirty,
              OpQueue.clear_rel hr', ?_, by simp [Spec.OpQueue.next]⟩
            simp only [Spec.OpQueue.next, hp' t, if_neg hnt]; exact hp1
        obtain ⟨hca, hexa⟩ := hstep
        rw [← hca]
        exact ih sa s2 os' (fun e he => hes e (by simp [he])) hw hexa

/-- The defect on a concrete history: tile `(0,0)` fails once, the third dab on it (in a later block,
with a working backend) is lost, and so are the first two. -/
example : (match session .heavyDebug demo (fun _ => []) [.dab 0, .dab 0] with
    | .ok (_, s) =>
      match endAtomic demo (fun _ => false) id s with
      | .ok s1 =>
        match run .heavyDebug demo s1 [.endAtomic id, .dab 0, .endAtomic id] with
        | .ok (_, s2) => decide (s2.canvas ⟨0, 0⟩ = [])
        | _ => false
      | _ => false
    | _ => false) = true := by
  decide +kernel

end Verif.Surf
