import Verif.Lemmas.OperationQueue
import Verif.Spec.TiledSurface

/-! Helper lemmas for deferred drawing. -/

namespace Verif.Surf

open Spec.OpQueue (St)
open OpQueue (Rel)
open Spec.TileMap (InBox)

variable {D T : Type}

theorem waiting_eq {b : Build} {q : OpQueue D} {s : St D} (h : Rel b q s) (t : TileIndex) :
    waiting q t = (s.pend t).length := by
  by_cases hc : q.tileMap.contains t
  · have hin := (TileMap.contains_iff _ _).mp hc
    have hat := h.inside t hin
    simp only [waiting, TileMap.get_ok h.wf hin, if_pos hc]
    rw [← hat]
    cases hx : q.tileMap.at' t with
    | none => rfl
    | some l => rfl
  · have hni : ¬ InBox q.tileMap.size t := fun hi => hc ((TileMap.contains_iff _ _).mpr hi)
    simp only [waiting, if_neg hc, h.outside t hni, List.length_nil]

theorem drain_spec {b : Build} (k : DabKind D T) (t : TileIndex) :
    ∀ (fuel : Nat) (q : OpQueue D) (s : St D) (buf : T) (op : D), Rel b q s →
      (s.pend t).length < fuel →
      ∃ q', drainLoop k t fuel q buf (some op)
          = .ok (q', (op :: s.pend t).foldl (fun v d => k.processOp t d v) buf) ∧
        Rel b q' { s with pend := Spec.OpQueue.setPend s t [] } ∧
        q'.tileMap.size = q.tileMap.size
  | 0, _, _, _, _, _, hf => by omega
  | fuel + 1, q, s, buf, op, h, hf => by
    obtain ⟨q1, he, hr, hsz⟩ := OpQueue.pop_spec h t
    simp only [drainLoop, he, bind, Except.bind]
    cases hp : s.pend t with
    | nil =>
      refine ⟨q1, by simp [drainLoop], ?_, hsz⟩
      simpa [Spec.OpQueue.next, hp] using hr
    | cons d ds =>
      have hnext : (Spec.OpQueue.next s (.pop t)).pend t = ds := by
        simp [Spec.OpQueue.next, Spec.OpQueue.setPend, hp]
      obtain ⟨q', he', hr', hsz'⟩ := drain_spec k t fuel q1 _ (k.processOp t op buf) d hr
        (by rw [hnext]; rw [hp] at hf; simp at hf; omega)
      rw [hnext] at he'
      refine ⟨q', ?_, ?_, by rw [hsz', hsz]⟩
      · simpa using he'
      · have : ({ Spec.OpQueue.next s (.pop t) with
            pend := Spec.OpQueue.setPend (Spec.OpQueue.next s (.pop t)) t [] } : St D)
            = { s with pend := Spec.OpQueue.setPend s t [] } := by
          simp only [Spec.OpQueue.next]
          congr 1
          funext u
          by_cases hu : u = t <;> simp [Spec.OpQueue.setPend, hu]
        rw [this] at hr'; exact hr'

/-- `process_tile` with a working backend applies everything waiting for the tile, in order. -/
theorem processTile_ok {b : Build} (k : DabKind D T) {s : Surf D T} {st : St D}
    (h : Rel b s.queue st) (t : TileIndex) :
    ∃ q', processTile k true s t = .ok
        { queue := q', canvas := setTile s.canvas t
            ((st.pend t).foldl (fun v d => k.processOp t d v) (s.canvas t)) } ∧
      Rel b q' { st with pend := Spec.OpQueue.setPend st t [] } ∧
      q'.tileMap.size = s.queue.tileMap.size := by
  obtain ⟨q1, he, hr, hsz⟩ := OpQueue.pop_spec h t
  cases hp : st.pend t with
  | nil =>
    refine ⟨q1, ?_, ?_, hsz⟩
    · simp only [processTile, he, bind, Except.bind, hp, List.head?_nil, pure, Except.pure,
        List.foldl_nil]
      congr 2
      funext u; simp only [setTile]; split
      · next hu => rw [hu]
      · rfl
    · simpa [Spec.OpQueue.next, hp] using hr
  | cons d ds =>
    have hw : waiting s.queue t = (d :: ds).length := by
      rw [waiting_eq h t, hp]
    have hnext : (Spec.OpQueue.next st (.pop t)).pend t = ds := by
      simp [Spec.OpQueue.next, Spec.OpQueue.setPend, hp]
    obtain ⟨q', he', hr', hsz'⟩ := drain_spec k t (d :: ds).length q1 _ (s.canvas t) d hr
      (by rw [hnext]; simp)
    rw [hnext] at he'
    refine ⟨q', ?_, ?_, by rw [hsz', hsz]⟩
    · simp only [processTile, he, bind, Except.bind, hp, List.head?_cons, hw, not_true_eq_false,
        if_false, he', pure, Except.pure]
    · have : ({ Spec.OpQueue.next st (.pop t) with
          pend := Spec.OpQueue.setPend (Spec.OpQueue.next st (.pop t)) t [] } : St D)
          = { st with pend := Spec.OpQueue.setPend st t [] } := by
        simp only [Spec.OpQueue.next]
        congr 1
        funext u
        by_cases hu : u = t <;> simp [Spec.OpQueue.setPend, hu]
      rw [this] at hr'; exact hr'

/-- The surface `s` (with abstract queue `st`) stands for the canvas `c` on which every accepted dab
was applied at once; waiting tiles are marked. -/
structure Stands (b : Build) (k : DabKind D T) (s : Surf D T) (st : St D) (c : TileIndex → T) :
    Prop where
  rel : Rel b s.queue st
  eq : ∀ t, (st.pend t).foldl (fun v d => k.processOp t d v) (s.canvas t) = c t
  marked : ∀ t, st.pend t ≠ [] → st.marked t

theorem stands_process {b : Build} {k : DabKind D T} {s : Surf D T} {st : St D} {c : TileIndex → T}
    (h : Stands b k s st c) (t : TileIndex) :
    ∃ s', processTile k true s t = .ok s' ∧
      Stands b k s' { st with pend := Spec.OpQueue.setPend st t [] } c ∧
      s'.canvas t = c t ∧ s'.queue.tileMap.size = s.queue.tileMap.size := by
  obtain ⟨q', he, hr, hsz⟩ := processTile_ok k h.rel t
  refine ⟨_, he, ⟨hr, ?_, ?_⟩, ?_, hsz⟩
  · intro u
    simp only [Spec.OpQueue.setPend, setTile]
    by_cases hu : u = t
    · subst hu; simp [h.eq]
    · simp [hu, h.eq]
  · intro u hu
    simp only [Spec.OpQueue.setPend] at hu
    by_cases hut : u = t
    · simp [hut] at hu
    · rw [if_neg hut] at hu; exact h.marked u hu
  · simp [setTile, h.eq]

/-- Processing a list of tiles. -/
theorem stands_processAll {b : Build} {k : DabKind D T} :
    ∀ (ts : List TileIndex) (s : Surf D T) (st : St D) (c : TileIndex → T), Stands b k s st c →
      ∃ s' st', ts.foldlM (fun s t => processTile k true s t) s = .ok s' ∧ Stands b k s' st' c ∧
        (∀ u, st'.pend u = if u ∈ ts then [] else st.pend u) ∧ st'.marked = st.marked
  | [], s, st, c, h => ⟨s, st, rfl, h, by simp, rfl⟩
  | t :: ts, s, st, c, h => by
    obtain ⟨s1, he, h1, _, _⟩ := stands_process h t
    obtain ⟨s', st', he', h', hp, hm⟩ := stands_processAll ts s1 _ c h1
    refine ⟨s', st', ?_, h', ?_, hm⟩
    · rw [List.foldlM_cons, he]; exact he'
    · intro u
      rw [hp u]
      simp only [Spec.OpQueue.setPend, List.mem_cons]
      by_cases h1 : u ∈ ts <;> by_cases h2 : u = t <;> simp [h1, h2]

/-- Sampling reads the immediate canvas. -/
theorem stands_sample {b : Build} {k : DabKind D T} :
    ∀ (ts : List TileIndex) (s : Surf D T) (st : St D) (c : TileIndex → T), Stands b k s st c →
      ∃ s' st', sample k s ts = .ok (ts.map c, s') ∧ Stands b k s' st' c ∧
        st'.marked = st.marked
  | [], s, st, c, h => ⟨s, st, rfl, h, rfl⟩
  | t :: ts, s, st, c, h => by
    obtain ⟨s1, he, h1, hv, _⟩ := stands_process h t
    obtain ⟨s', st', he', h', hm⟩ := stands_sample ts s1 _ c h1
    refine ⟨s', st', ?_, h', hm⟩
    simp only [sample, he, bind, Except.bind, he', pure, Except.pure, hv, List.map_cons]

/-- End of a block: with any rearrangement of the dirty list, everything is applied. -/
theorem stands_end {b : Build} {k : DabKind D T} {s : Surf D T} {st : St D} {c : TileIndex → T}
    (h : Stands b k s st c) (order : List TileIndex → List TileIndex)
    (ho : ∀ l, (order l).Perm l) :
    ∃ s' st', endAtomic k (fun _ => true) order s = .ok s' ∧ Stands b k s' st' c ∧
      (∀ t, st'.pend t = []) ∧ (∀ t, ¬ st'.marked t) ∧ s'.canvas = c := by
  obtain ⟨l, q1, hl, hr, hnd, hmem, hsz⟩ := OpQueue.getDirty_spec h.rel
  have h1 : Stands b k { s with queue := q1 } st c := ⟨hr, h.eq, h.marked⟩
  obtain ⟨s2, st2, he2, h2, hp2, hm2⟩ := stands_processAll (order l) _ st c h1
  have hall : ∀ t, st2.pend t = [] := by
    intro t
    rw [hp2 t]
    split
    · rfl
    · next hn =>
      by_contra hc
      exact hn ((ho l).symm.subset ((hmem t).mpr (h.marked t hc)))
  have hrc := OpQueue.clear_rel h2.rel
  refine ⟨{ s2 with queue := s2.queue.clearDirtyTiles }, Spec.OpQueue.next st2 .clearDirty, ?_,
    ⟨hrc, ?_, ?_⟩, ?_, ?_, ?_⟩
  · simp only [endAtomic, hl, bind, Except.bind, he2]; rfl
  · exact h2.eq
  · intro t ht; exact absurd (hall t) ht
  · exact hall
  · intro t; simp [Spec.OpQueue.next]
  · funext t
    have := h2.eq t
    rw [hall t] at this; exact this

/-- Queueing a dab for distinct tiles, if it does not fault. -/
theorem add_fold {b : Build} (d : D) :
    ∀ (ts : List TileIndex) (q q' : OpQueue D) (st : St D), Rel b q st →
      ts.Nodup → (∀ t, st.pend t ≠ [] → st.marked t) →
      ts.foldlM (fun q t => OpQueue.add b q t d) q = .ok q' →
      ∃ st', Rel b q' st' ∧ (∀ t, st'.pend t = if t ∈ ts then st.pend t ++ [d] else st.pend t) ∧
        (∀ t, st'.pend t ≠ [] → st'.marked t)
  | [], q, q', st, h, _, hm, he => by
    have : q = q' := by simpa [pure, Except.pure] using he
    subst this
    exact ⟨st, h, by simp, hm⟩
  | t :: ts, q, q', st, h, hnd, hm, he => by
    rw [List.nodup_cons] at hnd
    rw [List.foldlM_cons] at he
    rcases OpQueue.add_spec h t d with ⟨_, hx⟩ | ⟨_, _, _, hx⟩ | ⟨_, _, q1, hx, hr, _⟩
    · rw [hx] at he; cases he
    · rw [hx] at he; cases he
    · rw [hx] at he
      have hm1 : ∀ u, (Spec.OpQueue.next st (.add t d)).pend u ≠ [] →
          (Spec.OpQueue.next st (.add t d)).marked u := by
        intro u hu
        simp only [Spec.OpQueue.next, Spec.OpQueue.setPend] at hu ⊢
        by_cases hut : u = t
        · subst hut
          by_cases hp : st.pend u = []
          · exact Or.inr ⟨rfl, hp⟩
          · exact Or.inl (hm u hp)
        · rw [if_neg hut] at hu; exact Or.inl (hm u hu)
      obtain ⟨st', hr', hp', hm'⟩ := add_fold d ts q1 q' _ hr hnd.2 hm1 he
      refine ⟨st', hr', ?_, hm'⟩
      intro u
      rw [hp' u]
      simp only [Spec.OpQueue.next, Spec.OpQueue.setPend, List.mem_cons]
      by_cases h1 : u ∈ ts <;> by_cases h2 : u = t
      · subst h2; exact absurd h1 hnd.1
      · simp [h1, h2]
      · simp [h2, hnd.1]
      · simp [h1, h2]

theorem stands_dab {b : Build} {k : DabKind D T} {s s' : Surf D T} {st : St D} {c : TileIndex → T}
    (h : Stands b k s st c) (d : D) (hnd : (k.tilesOf d).Nodup) (he : drawDab b k s d = .ok s') :
    ∃ st', Stands b k s' st' (Spec.Surf.drawNow k c d) := by
  simp only [drawDab, bind, Except.bind] at he
  split at he
  · cases he
  next q' hq =>
    cases he
    obtain ⟨st', hr, hp, hm⟩ := add_fold d _ _ _ st h.rel hnd h.marked hq
    refine ⟨st', hr, ?_, hm⟩
    intro t
    rw [hp t]
    simp only [Spec.Surf.drawNow]
    split
    · rw [List.foldl_append, h.eq t]; rfl
    · exact h.eq t

theorem init_stands (b : Build) (k : DabKind D T) (c : TileIndex → T) :
    ∃ s st, init b c = .ok s ∧ Stands b k s st c ∧ s.canvas = c := by
  obtain ⟨q, hq, hr, _⟩ := OpQueue.new_rel (β := D) b
  refine ⟨⟨q, c⟩, _, by simp only [init, hq, bind, Except.bind]; rfl, ⟨hr, fun _ => rfl, ?_⟩, rfl⟩
  intro t ht; exact absurd rfl ht

open Spec.Surf (OrderOk)

theorem stands_run {b : Build} {k : DabKind D T} (hk : ∀ d, (k.tilesOf d).Nodup) :
    ∀ (es : List (Event D)) (s s' : Surf D T) (st : St D) (c : TileIndex → T) (os : List (List T)),
      Stands b k s st c → (∀ e ∈ es, OrderOk e) → run b k s es = .ok (os, s') →
      os = Spec.Surf.outs k c es ∧ ∃ st', Stands b k s' st' (Spec.Surf.final k c es)
  | [], s, s', st, c, os, h, _, he => by
    simp only [run] at he; cases he
    exact ⟨rfl, st, h⟩
  | e :: es, s, s', st, c, os, h, ho, he => by
    have ho' : ∀ e ∈ es, OrderOk e := fun e' he' => ho e' (by simp [he'])
    simp only [run, bind, Except.bind] at he
    split at he
    · cases he
    next v hv =>
      obtain ⟨o, s1⟩ := v
      split at he
      · cases he
      next v' hv' =>
        obtain ⟨os', s2⟩ := v'
        simp only [pure, Except.pure] at he
        cases he
        have key : o = Spec.Surf.out c e ∧ ∃ st1, Stands b k s1 st1 (Spec.Surf.next k c e) := by
          cases e with
          | dab d =>
            simp only [step, bind, Except.bind] at hv
            split at hv
            · cases hv
            next s1' hs1 =>
              simp only [pure, Except.pure] at hv; cases hv
              exact ⟨rfl, stands_dab h d (hk d) hs1⟩
          | sample ts =>
            obtain ⟨s1', st1, hx, h1, _⟩ := stands_sample (b := b) (k := k) ts s st c h
            simp only [step, hx] at hv; cases hv
            exact ⟨rfl, st1, h1⟩
          | endAtomic order =>
            obtain ⟨s1', st1, hx, h1, _⟩ := stands_end h order (ho (.endAtomic order) (by simp))
            simp only [step, hx, bind, Except.bind, pure, Except.pure] at hv; cases hv
            exact ⟨rfl, st1, h1⟩
        obtain ⟨ho1, st1, h1⟩ := key
        obtain ⟨h2, h3⟩ := stands_run hk es s1 _ st1 _ os' h1 ho' hv'
        exact ⟨by rw [ho1, h2]; rfl, h3⟩

/-! ### Parallel processing -/

/-- What worker `t` still owes, in state `w`, adds up to the immediate canvas. -/
def WorkerInv (k : DabKind D T) (pend : List D) (tile : T) (goal : T) (t : TileIndex) :
    Worker D T → Prop
  | .idle => pend.foldl (fun v d => k.processOp t d v) tile = goal
  | .popped op => (op :: pend).foldl (fun v d => k.processOp t d v) tile = goal
  | .holding op buf => (op :: pend).foldl (fun v d => k.processOp t d v) buf = goal
  | .processed buf => pend.foldl (fun v d => k.processOp t d v) buf = goal
  | .ending buf => pend = [] ∧ buf = goal
  | .finished => pend = [] ∧ tile = goal

/-- Steps a worker still has to do. -/
def todo (n : Nat) : Worker D T → Nat
  | .idle => 2 * n + 3
  | .popped _ => 2 * n + 4
  | .holding _ _ => 2 * n + 3
  | .processed _ => 2 * n + 2
  | .ending _ => 1
  | .finished => 0

structure PInv (b : Build) (k : DabKind D T) (p : PState D T) (st : St D) (c : TileIndex → T) :
    Prop where
  rel : Rel b p.queue st
  inv : ∀ t, WorkerInv k (st.pend t) (p.canvas t) (c t) t (p.worker t)

theorem setWorker_self (w : TileIndex → Worker D T) (t : TileIndex) (v : Worker D T) :
    setWorker w t v t = v := by simp [setWorker]

theorem setWorker_ne (w : TileIndex → Worker D T) {t u : TileIndex} (v : Worker D T) (h : u ≠ t) :
    setWorker w t v u = w u := by simp [setWorker, h]

/-- One micro-step never faults, keeps the invariant and makes progress on its own tile only. -/
theorem micro_ok {b : Build} {k : DabKind D T} {p : PState D T} {st : St D} {c : TileIndex → T}
    (h : PInv b k p st c) (t : TileIndex) :
    ∃ p' st', micro k p t = .ok p' ∧ PInv b k p' st' c ∧ st'.marked = st.marked ∧
      (∀ u, u ≠ t → st'.pend u = st.pend u ∧ p'.canvas u = p.canvas u ∧ p'.worker u = p.worker u) ∧
      todo (st'.pend t).length (p'.worker t) ≤ todo (st.pend t).length (p.worker t) - 1 := by
  have hinv := h.inv t
  obtain ⟨q1, hpop, hrel1, -⟩ := OpQueue.pop_spec h.rel t
  have hother : ∀ u, u ≠ t → (Spec.OpQueue.next st (.pop t)).pend u = st.pend u := by
    intro u hu; simp [Spec.OpQueue.next, Spec.OpQueue.setPend, hu]
  have hself : (Spec.OpQueue.next st (.pop t)).pend t = (st.pend t).tail := by
    simp [Spec.OpQueue.next, Spec.OpQueue.setPend]
  cases hw : p.worker t with
  | idle =>
    rw [hw] at hinv
    cases hp : st.pend t with
    | nil =>
      refine ⟨{ p with queue := q1, worker := setWorker p.worker t .finished },
        Spec.OpQueue.next st (.pop t), ?_, ⟨hrel1, ?_⟩, rfl, ?_, ?_⟩
      · simp [micro, hw, hpop, bind, Except.bind, hp, pure, Except.pure]
      · intro u
        by_cases hu : u = t
        · subst hu; rw [hp] at hinv
          simp only [setWorker_self, hself, hp]; exact ⟨rfl, hinv⟩
        · simp only [setWorker_ne _ _ hu, hother u hu]; exact h.inv u
      · intro u hu; exact ⟨hother u hu, rfl, setWorker_ne _ _ hu⟩
      · simp [setWorker_self, todo]
    | cons d ds =>
      refine ⟨{ p with queue := q1, worker := setWorker p.worker t (.popped d) },
        Spec.OpQueue.next st (.pop t), ?_, ⟨hrel1, ?_⟩, rfl, ?_, ?_⟩
      · simp [micro, hw, hpop, bind, Except.bind, hp, pure, Except.pure]
      · intro u
        by_cases hu : u = t
        · subst hu; rw [hp] at hinv
          simp only [setWorker_self, hself, hp, List.tail_cons]; exact hinv
        · simp only [setWorker_ne _ _ hu, hother u hu]; exact h.inv u
      · intro u hu; exact ⟨hother u hu, rfl, setWorker_ne _ _ hu⟩
      · simp [setWorker_self, todo, hself, hp]; omega
  | popped d =>
    rw [hw] at hinv
    refine ⟨{ p with worker := setWorker p.worker t (.holding d (p.canvas t)) }, st, ?_,
      ⟨h.rel, ?_⟩, rfl, ?_, ?_⟩
    · simp [micro, hw, pure, Except.pure]
    · intro u
      by_cases hu : u = t
      · subst hu; simp only [setWorker_self]; exact hinv
      · simp only [setWorker_ne _ _ hu]; exact h.inv u
    · intro u hu; exact ⟨rfl, rfl, setWorker_ne _ _ hu⟩
    · simp [setWorker_self, todo]
  | holding d buf =>
    rw [hw] at hinv
    refine ⟨{ p with worker := setWorker p.worker t (.processed (k.processOp t d buf)) }, st, ?_,
      ⟨h.rel, ?_⟩, rfl, ?_, ?_⟩
    · simp [micro, hw, pure, Except.pure]
    · intro u
      by_cases hu : u = t
      · subst hu; simp only [setWorker_self]; exact hinv
      · simp only [setWorker_ne _ _ hu]; exact h.inv u
    · intro u hu; exact ⟨rfl, rfl, setWorker_ne _ _ hu⟩
    · simp [setWorker_self, todo]
  | processed buf =>
    rw [hw] at hinv
    cases hp : st.pend t with
    | nil =>
      refine ⟨{ p with queue := q1, worker := setWorker p.worker t (.ending buf) },
        Spec.OpQueue.next st (.pop t), ?_, ⟨hrel1, ?_⟩, rfl, ?_, ?_⟩
      · simp [micro, hw, hpop, bind, Except.bind, hp, pure, Except.pure]
      · intro u
        by_cases hu : u = t
        · subst hu; rw [hp] at hinv
          simp only [setWorker_self, hself, hp]; exact ⟨rfl, hinv⟩
        · simp only [setWorker_ne _ _ hu, hother u hu]; exact h.inv u
      · intro u hu; exact ⟨hother u hu, rfl, setWorker_ne _ _ hu⟩
      · simp [setWorker_self, todo]
    | cons d ds =>
      refine ⟨{ p with queue := q1, worker := setWorker p.worker t (.holding d buf) },
        Spec.OpQueue.next st (.pop t), ?_, ⟨hrel1, ?_⟩, rfl, ?_, ?_⟩
      · simp [micro, hw, hpop, bind, Except.bind, hp, pure, Except.pure]
      · intro u
        by_cases hu : u = t
        · subst hu; rw [hp] at hinv
          simp only [setWorker_self, hself, hp, List.tail_cons]; exact hinv
        · simp only [setWorker_ne _ _ hu, hother u hu]; exact h.inv u
      · intro u hu; exact ⟨hother u hu, rfl, setWorker_ne _ _ hu⟩
      · simp [setWorker_self, todo, hself, hp]; omega
  | ending buf =>
    rw [hw] at hinv
    obtain ⟨hp, hb⟩ := hinv
    refine ⟨{ p with canvas := setTile p.canvas t buf, worker := setWorker p.worker t .finished },
      st, ?_, ⟨h.rel, ?_⟩, rfl, ?_, ?_⟩
    · simp [micro, hw, pure, Except.pure]
    · intro u
      by_cases hu : u = t
      · subst hu; simp only [setWorker_self, setTile, if_true]; exact ⟨hp, hb⟩
      · simp only [setWorker_ne _ _ hu, setTile, if_neg hu]; exact h.inv u
    · intro u hu; exact ⟨rfl, by simp [setTile, hu], setWorker_ne _ _ hu⟩
    · simp [setWorker_self, todo]
  | finished =>
    refine ⟨p, st, ?_, h, rfl, fun u _ => ⟨rfl, rfl, rfl⟩, ?_⟩
    · simp [micro, hw, pure, Except.pure]
    · simp [hw, todo]

theorem micros_ok {b : Build} {k : DabKind D T} :
    ∀ (sched : List TileIndex) (p : PState D T) (st : St D) (c : TileIndex → T), PInv b k p st c →
      ∃ p' st', sched.foldlM (micro k) p = .ok p' ∧ PInv b k p' st' c ∧ st'.marked = st.marked ∧
        (∀ u, u ∉ sched → st'.pend u = st.pend u ∧ p'.canvas u = p.canvas u ∧
          p'.worker u = p.worker u) ∧
        (∀ u, todo (st'.pend u).length (p'.worker u)
          ≤ todo (st.pend u).length (p.worker u) - sched.count u)
  | [], p, st, c, h => ⟨p, st, rfl, h, rfl, fun _ _ => ⟨rfl, rfl, rfl⟩, by simp⟩
  | t :: sched, p, st, c, h => by
    obtain ⟨p1, st1, he1, h1, hm1, hf1, ht1⟩ := micro_ok h t
    obtain ⟨p2, st2, he2, h2, hm2, hf2, ht2⟩ := micros_ok sched p1 st1 c h1
    refine ⟨p2, st2, ?_, h2, by rw [hm2, hm1], ?_, ?_⟩
    · rw [List.foldlM_cons, he1]; exact he2
    · intro u hu
      simp only [List.mem_cons, not_or] at hu
      obtain ⟨a1, a2, a3⟩ := hf1 u hu.1
      obtain ⟨b1, b2, b3⟩ := hf2 u hu.2
      exact ⟨by rw [b1, a1], by rw [b2, a2], by rw [b3, a3]⟩
    · intro u
      have := ht2 u
      by_cases hu : u = t
      · subst hu; rw [List.count_cons_self]; omega
      · obtain ⟨a1, _, a3⟩ := hf1 u hu
        rw [a1, a3] at this
        rw [List.count_cons_of_ne (fun h => hu h.symm)]; exact this

/-! ### Success of blocks without early processing -/

theorem add_fold_succ {b : Build} (d : D) :
    ∀ (ts : List TileIndex) (q : OpQueue D) (st : St D), Rel b q st →
      (∀ t, st.marked t → st.pend t ≠ []) → (∀ t ∈ ts, InBox 20480 t) →
      ∃ q' st', ts.foldlM (fun q t => OpQueue.add b q t d) q = .ok q' ∧ Rel b q' st' ∧
        (∀ t, st'.marked t → st'.pend t ≠ [])
  | [], q, st, h, hm, _ => ⟨q, st, rfl, h, hm⟩
  | t :: ts, q, st, h, hm, hin => by
    have hbox : InBox (Spec.OpQueue.farthest b) t := by
      cases b
      · exact hin t (by simp)
      · exact TileMap.inBox_mono (by simp [Spec.OpQueue.farthest]) (hin t (by simp))
    rcases OpQueue.add_spec h t d with ⟨hb, _⟩ | ⟨hi, hp, hall, _⟩ | ⟨_, _, q1, hx, hr, _⟩
    · exact absurd hbox hb
    · exact absurd hp (hm t (hall t hi))
    · obtain ⟨q', st', he, hr', hm'⟩ := add_fold_succ d ts q1 _ hr (by
        intro u hu
        simp only [Spec.OpQueue.next, Spec.OpQueue.setPend] at hu ⊢
        by_cases hut : u = t
        · simp [hut]
        · rw [if_neg hut]
          rcases hu with hu | ⟨hu, _⟩
          · exact hm u hu
          · exact absurd hu hut) (fun u hu => hin u (by simp [hu]))
      exact ⟨q', st', by rw [List.foldlM_cons, hx]; exact he, hr', hm'⟩

/-- Markings after queueing: nothing is unmarked, and only tiles without waiting operations become
marked. -/
theorem add_fold_frame {b : Build} (d : D) :
    ∀ (ts : List TileIndex) (q q' : OpQueue D) (st : St D), Rel b q st →
      ts.foldlM (fun q t => OpQueue.add b q t d) q = .ok q' →
      ∃ st', Rel b q' st' ∧ (∀ t, st.pend t ≠ [] → st'.pend t ≠ [] ∧ (st'.marked t ↔ st.marked t))
  | [], q, q', st, h, he => by
    have : q = q' := by simpa [pure, Except.pure] using he
    subst this
    exact ⟨st, h, fun t ht => ⟨ht, Iff.rfl⟩⟩
  | t :: ts, q, q', st, h, he => by
    rw [List.foldlM_cons] at he
    rcases OpQueue.add_spec h t d with ⟨_, hx⟩ | ⟨_, _, _, hx⟩ | ⟨_, _, q1, hx, hr, _⟩
    · rw [hx] at he; cases he
    · rw [hx] at he; cases he
    · rw [hx] at he
      obtain ⟨st', hr', hp'⟩ := add_fold_frame d ts q1 q' _ hr he
      refine ⟨st', hr', ?_⟩
      intro u hu
      have hne : (Spec.OpQueue.next st (.add t d)).pend u ≠ [] := by
        simp only [Spec.OpQueue.next, Spec.OpQueue.setPend]
        split
        · simp
        · exact hu
      obtain ⟨h1, h2⟩ := hp' u hne
      refine ⟨h1, h2.trans ?_⟩
      simp only [Spec.OpQueue.next]
      constructor
      · rintro (h | ⟨rfl, h⟩)
        · exact h
        · exact absurd h hu
      · exact Or.inl

/-! ### A backend that fails -/

theorem processTile_fail {b : Build} (k : DabKind D T) {s : Surf D T} {st : St D}
    (h : Rel b s.queue st) (t : TileIndex) :
    ∃ q', processTile k false s t = .ok { s with queue := q' } ∧
      Rel b q' { st with pend := Spec.OpQueue.setPend st t (st.pend t).tail } := by
  obtain ⟨q1, he, hr, hsz⟩ := OpQueue.pop_spec h t
  refine ⟨q1, ?_, hr⟩
  cases hp : st.pend t with
  | nil => simp [processTile, he, bind, Except.bind, hp, pure, Except.pure]
  | cons d ds => simp [processTile, he, bind, Except.bind, hp, pure, Except.pure]

/-- Processing distinct tiles with a backend that may fail for some of them. -/
theorem processAll_avail {b : Build} (k : DabKind D T) (avail : TileIndex → Bool) :
    ∀ (ts : List TileIndex) (s : Surf D T) (st : St D), Rel b s.queue st → ts.Nodup →
      ∃ s' st', ts.foldlM (fun s t => processTile k (avail t) s t) s = .ok s' ∧
        Rel b s'.queue st' ∧ st'.marked = st.marked ∧
        (∀ t, st'.pend t = if t ∈ ts then (if avail t then [] else (st.pend t).tail)
          else st.pend t) ∧
        (∀ t, s'.canvas t = if t ∈ ts ∧ avail t
          then (st.pend t).foldl (fun v d => k.processOp t d v) (s.canvas t) else s.canvas t)
  | [], s, st, h, _ => ⟨s, st, rfl, h, rfl, by simp, by simp⟩
  | t :: ts, s, st, h, hnd => by
    rw [List.nodup_cons] at hnd
    have step : ∃ s1 st1, processTile k (avail t) s t = .ok s1 ∧ Rel b s1.queue st1 ∧
        st1.marked = st.marked ∧
        (∀ u, st1.pend u = if u = t then (if avail t then [] else (st.pend t).tail)
          else st.pend u) ∧
        (∀ u, s1.canvas u = if u = t ∧ avail t
          then (st.pend t).foldl (fun v d => k.processOp t d v) (s.canvas t) else s.canvas u) := by
      cases ha : avail t with
      | true =>
        obtain ⟨q', he, hr, _⟩ := processTile_ok k h t
        refine ⟨_, _, he, hr, rfl, ?_, ?_⟩
        · intro u; simp [Spec.OpQueue.setPend]
        · intro u; simp [setTile]
      | false =>
        obtain ⟨q', he, hr⟩ := processTile_fail k h t
        refine ⟨_, _, he, hr, rfl, ?_, ?_⟩
        · intro u; simp [Spec.OpQueue.setPend]
        · intro u; simp
    obtain ⟨s1, st1, he1, hr1, hm1, hp1, hc1⟩ := step
    obtain ⟨s', st', he', hr', hm', hp', hc'⟩ := processAll_avail k avail ts s1 st1 hr1 hnd.2
    refine ⟨s', st', by rw [List.foldlM_cons, he1]; exact he', hr', by rw [hm', hm1], ?_, ?_⟩
    · intro u
      rw [hp' u, hp1 u]
      by_cases hu : u = t
      · subst hu; simp [hnd.1]
      · simp [hu]
    · intro u
      rw [hc' u, hc1 u, hp1 u]
      by_cases hu : u = t
      · subst hu; simp [hnd.1]
      · simp [hu]

end Verif.Surf
