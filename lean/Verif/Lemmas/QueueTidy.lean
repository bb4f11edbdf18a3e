import Verif.Lemmas.QueueMemory
import Verif.Lemmas.TiledSurface

/-! From the invariant of the memory of the queue to its specification, and sessions that fail. -/

namespace Verif

namespace QueueMemory

open Spec.QueueMemory
open Spec.TileMap (InBox)
open Spec.Surf (OrderOk)

variable {β T : Type} {P : Prop}

theorem linked_of_chain {h : Fifo.Heap Nat} : ∀ {xs : List (Nat × Nat)} {p : Option Nat},
    Fifo.Chain h p xs → ∀ i, Linked h p i ↔ i ∈ xs.map Prod.fst
  | [], p, hc, i => by
    have hp : p = none := hc
    subst hp
    constructor
    · intro hl; cases hl
    · intro hi; simp at hi
  | (a, d) :: xs, p, hc, i => by
    obtain ⟨hp, nx, ha, hrest⟩ := hc
    subst hp
    have ih := linked_of_chain hrest i
    simp only [List.map_cons, List.mem_cons]
    constructor
    · intro hl
      cases hl with
      | here _ => exact Or.inl rfl
      | next h1 h2 =>
        rw [ha] at h1
        cases h1
        exact Or.inr (ih.mp h2)
    · rintro (rfl | hi)
      · exact .here ha
      · exact .next ha (ih.mpr hi)

theorem payload_of_chain {h : Fifo.Heap Nat} : ∀ {xs : List (Nat × Nat)} {p : Option Nat},
    Fifo.Chain h p xs → ∀ x ∈ xs, ∃ nx, h x.1 = some ⟨nx, x.2⟩
  | [], _, _, x, hx => by simp at hx
  | (a, d) :: xs, p, hc, x, hx => by
    obtain ⟨_, nx, ha, hrest⟩ := hc
    rcases List.mem_cons.mp hx with rfl | hx
    · exact ⟨nx, ha⟩
    · exact payload_of_chain hrest x hx

section tidy

variable {b : Build} {s : State β} {H : List Nat} {G : Nat → List (Nat × Nat)}

theorem slot_iff (h : Inv b s.mem s.q.tileMap H G) (t : TileIndex) (a : Nat) :
    Slot s t a ↔ InBox s.q.tileMap.size t ∧ s.q.tileMap.at' t = some a := by
  unfold Slot
  constructor
  · rintro ⟨hc, hg⟩
    have hi := (TileMap.contains_iff _ _).mp hc
    rw [TileMap.get_ok h.wf hi] at hg
    exact ⟨hi, Except.ok.inj hg⟩
  · rintro ⟨hi, ha⟩
    exact ⟨(TileMap.contains_iff _ _).mpr hi, by rw [TileMap.get_ok h.wf hi, ha]⟩

theorem itemOf_iff (h : Inv b s.mem s.q.tileMap H G) (t : TileIndex) (i : Nat) :
    ItemOf s t i ↔ ∃ a, Slot s t a ∧ i ∈ (G a).map Prod.fst := by
  constructor
  · rintro ⟨a, hdr, hs, hf, hl⟩
    exact ⟨a, hs, (linked_of_chain (h.holds a hdr hf).1 i).mp hl⟩
  · rintro ⟨a, hs, hi⟩
    obtain ⟨h1, h2⟩ := (slot_iff h t a).mp hs
    obtain ⟨hdr, hf⟩ := Option.ne_none_iff_exists'.mp (h.slotLive t a h1 h2)
    exact ⟨a, hdr, hs, hf, (linked_of_chain (h.holds a hdr hf).1 i).mpr hi⟩

theorem waits_iff (h : Inv b s.mem s.q.tileMap H G) (t : TileIndex) (o : Nat) :
    Waits s t o ↔ ∃ a, Slot s t a ∧ o ∈ (G a).map Prod.snd := by
  have key : ∀ a, Slot s t a → ∀ x ∈ G a, ∃ nx, s.mem.items x.1 = some ⟨nx, x.2⟩ := by
    intro a hs
    obtain ⟨h1, h2⟩ := (slot_iff h t a).mp hs
    obtain ⟨hdr, hf⟩ := Option.ne_none_iff_exists'.mp (h.slotLive t a h1 h2)
    exact payload_of_chain (h.holds a hdr hf).1
  constructor
  · rintro ⟨i, it, hi, hit, rfl⟩
    obtain ⟨a, hs, hm⟩ := (itemOf_iff h t i).mp hi
    obtain ⟨x, hx, rfl⟩ := List.mem_map.mp hm
    obtain ⟨nx, hk⟩ := key a hs x hx
    rw [hit] at hk
    cases hk
    exact ⟨a, hs, List.mem_map.mpr ⟨x, hx, rfl⟩⟩
  · rintro ⟨a, hs, hm⟩
    obtain ⟨x, hx, rfl⟩ := List.mem_map.mp hm
    obtain ⟨nx, hk⟩ := key a hs x hx
    exact ⟨x.1, _, (itemOf_iff h t x.1).mpr ⟨a, hs, List.mem_map.mpr ⟨x, hx, rfl⟩⟩, hk, rfl⟩

theorem slot_live (h : Inv b s.mem s.q.tileMap H G) {t : TileIndex} {a : Nat} (hs : Slot s t a) :
    s.mem.fifos a ≠ none := by
  obtain ⟨h1, h2⟩ := (slot_iff h t a).mp hs
  exact h.slotLive t a h1 h2

theorem live_slot (h : Inv b s.mem s.q.tileMap H G) {a : Nat} (ha : s.mem.fifos a ≠ none) :
    ∃ t, Slot s t a := by
  obtain ⟨t, h1, h2⟩ := h.fifoUsed a ha
  exact ⟨t, (slot_iff h t a).mpr ⟨h1, h2⟩⟩

theorem slot_tile (h : Inv b s.mem s.q.tileMap H G) {t t' : TileIndex} {a : Nat} (hs : Slot s t a)
    (hs' : Slot s t' a) : t = t' := by
  obtain ⟨h1, h2⟩ := (slot_iff h t a).mp hs
  obtain ⟨h3, h4⟩ := (slot_iff h t' a).mp hs'
  exact h.slotInj t t' a h1 h3 h2 h4

theorem live_op (h : Inv b s.mem s.q.tileMap H G) (o : Nat) :
    s.mem.ops o ≠ none ↔ o ∈ H ∨ ∃ t, Waits s t o := by
  rw [h.opLive]
  refine or_congr Iff.rfl ⟨?_, ?_⟩
  · rintro ⟨a, ha, ho⟩
    obtain ⟨t, ht⟩ := live_slot h ha
    exact ⟨t, (waits_iff h t o).mpr ⟨a, ht, ho⟩⟩
  · rintro ⟨t, ht⟩
    obtain ⟨a, hs, ho⟩ := (waits_iff h t o).mp ht
    exact ⟨a, slot_live h hs, ho⟩

theorem held_waits (h : Inv b s.mem s.q.tileMap H G) {o : Nat} (ho : o ∈ H) (t : TileIndex) :
    ¬ Waits s t o := by
  intro hw
  obtain ⟨a, hs, hm⟩ := (waits_iff h t o).mp hw
  exact h.opHeld o a ho (slot_live h hs) hm

theorem tidy_of_inv (h : Inv b s.mem s.q.tileMap [] G) (hf : Full True s.q.tileMap G) : Tidy s where
  fifo := fun a => ⟨live_slot h, fun ⟨_, ht⟩ => slot_live h ht⟩
  fifoOwn := fun _ _ _ => slot_tile h
  fifoFull := by
    intro t a hs
    obtain ⟨h1, h2⟩ := (slot_iff h t a).mp hs
    obtain ⟨x, hx⟩ := List.exists_mem_of_ne_nil _ (hf trivial t a h1 h2)
    exact ⟨x.2, (waits_iff h t x.2).mpr ⟨a, hs, List.mem_map.mpr ⟨x, hx, rfl⟩⟩⟩
  item := by
    intro i
    constructor
    · intro hi
      obtain ⟨a, ha, hm⟩ := h.itemUsed i hi
      obtain ⟨t, ht⟩ := live_slot h ha
      exact ⟨t, (itemOf_iff h t i).mpr ⟨a, ht, hm⟩⟩
    · rintro ⟨t, a, hdr, hs, hfi, hl⟩
      exact Fifo.chain_alloc (h.holds a hdr hfi).1 i ((linked_of_chain (h.holds a hdr hfi).1 i).mp hl)
  itemOwn := by
    intro i t t' h1 h2
    obtain ⟨a, hs, hm⟩ := (itemOf_iff h t i).mp h1
    obtain ⟨a', hs', hm'⟩ := (itemOf_iff h t' i).mp h2
    have := h.itemOwn a a' i (slot_live h hs) (slot_live h hs') hm hm'
    subst this
    exact slot_tile h hs hs'
  op := fun o => by rw [live_op h o]; simp
  opOwn := by
    intro o t t' h1 h2
    obtain ⟨a, hs, hm⟩ := (waits_iff h t o).mp h1
    obtain ⟨a', hs', hm'⟩ := (waits_iff h t' o).mp h2
    have := h.opOwn a a' o (slot_live h hs) (slot_live h hs') hm hm'
    subst this
    exact slot_tile h hs hs'

/-- If nothing waits in the abstract queue then no memory is in use, except operations in other
hands. -/
theorem free_of_empty {S : Surf β T} (h : Rep True b s H G S)
    {st : Spec.OpQueue.St β} (hr : OpQueue.Rel b S.queue st) (hp : ∀ t, st.pend t = []) :
    ∀ a, s.mem.fifos a = none ∧ s.mem.items a = none ∧ (s.mem.ops a ≠ none ↔ a ∈ H) := by
  have hno : ∀ t a, ¬ Slot s t a := by
    intro t a hs
    obtain ⟨h1, h2⟩ := (slot_iff h.inv t a).mp hs
    have hsz : S.queue.tileMap.size = s.q.tileMap.size := by rw [h.queue]; rfl
    have := hr.inside t (by rw [hsz]; exact h1)
    rw [hp t, h.queue] at this
    have e : (absQ (contents s.mem G) s.q).tileMap.at' t = some (contents s.mem G a) := by
      show (TileMap.mapT (contents s.mem G) s.q.tileMap).at' t = _
      rw [TileMap.at'_mapT, h2]; rfl
    rw [e] at this
    exact h.full trivial t a h1 h2 ((contents_nil h.inv (slot_live h.inv hs)).mp this)
  have hf : ∀ a, s.mem.fifos a = none := by
    intro a
    by_contra hc
    obtain ⟨t, ht⟩ := live_slot h.inv hc
    exact hno t a ht
  intro a
  refine ⟨hf a, ?_, ?_⟩
  · by_contra hc
    obtain ⟨x, hx, _⟩ := h.inv.itemUsed a hc
    exact hx (hf x)
  · rw [live_op h.inv a]
    constructor
    · rintro (h1 | ⟨t, ht⟩)
      · exact h1
      · obtain ⟨x, hs, _⟩ := (waits_iff h.inv t a).mp ht
        exact absurd hs (hno t x)
    · exact Or.inl

end tidy

theorem waits_of_pend {b : Build} {s : State β} {H : List Nat} {G : Nat → List (Nat × Nat)}
    {S : Surf β T} (h : Rep True b s H G S) {t : TileIndex} (hi : InBox S.queue.tileMap.size t)
    {a : List β} (ha : S.queue.tileMap.at' t = some a) : ∃ o, Waits s t o := by
  have hsz : S.queue.tileMap.size = s.q.tileMap.size := by rw [h.queue]; rfl
  rw [hsz] at hi
  rw [h.queue] at ha
  have e : (absQ (contents s.mem G) s.q).tileMap.at' t
      = (s.q.tileMap.at' t).map (contents s.mem G) := TileMap.at'_mapT _ _ _
  rw [e] at ha
  obtain ⟨x, hx, _⟩ := Option.map_eq_some_iff.mp ha
  obtain ⟨y, hy⟩ := List.exists_mem_of_ne_nil _ (h.full trivial t x hi hx)
  exact ⟨y.2, (waits_iff h.inv t y.2).mpr
    ⟨x, (slot_iff h.inv t x).mpr ⟨hi, hx⟩, List.mem_map.mpr ⟨y, hy, rfl⟩⟩⟩

/-- Popping from a queue in which something waits. -/
theorem pop_waits {s : State β} {t : TileIndex} {o0 : Nat} (h : Waits s t o0) :
    ∃ o m' q', pop s.mem s.q t = .ok (some o, m', q') ∧ Waits s t o := by
  obtain ⟨i, it, ⟨a, hdr, hs, hf, hl⟩, _, _⟩ := h
  obtain ⟨x, itx, hx, hix⟩ : ∃ x itx, hdr.first = some x ∧ s.mem.items x = some itx := by
    generalize hdr.first = p at hl
    cases hl with
    | here h1 => exact ⟨_, _, rfl, h1⟩
    | next h1 _ => exact ⟨_, _, rfl, h1⟩
  refine ⟨itx.payload, ⟨upd s.mem.fifos a (some ⟨itx.next,
      if itx.next = none then none else hdr.last, hdr.itemCount - 1⟩),
      s.mem.items.set x none, s.mem.ops⟩, s.q, ?_, x, itx, ⟨a, hdr, hs, hf, by rw [hx]; exact .here hix⟩, hix, rfl⟩
  obtain ⟨hc, hg⟩ := hs
  simp only [pop, hc, not_true_eq_false, if_false, hg, bind, Except.bind, deref, hf, Fifo.pop, hx, hix,
    must]
  rfl

/-- Cutting a session before its last event. -/
theorem run_cut {b : Build} {k : DabKind β T} (ev : Surf.Event β) {S : Surf β T} :
    ∀ (es : List (Surf.Event β)) (S0 : Surf β T) (os : List (List T)),
      Surf.run b k S0 (es ++ [ev]) = .ok (os, S) →
      ∃ os1 S1 o, Surf.run b k S0 es = .ok (os1, S1) ∧ Surf.step b k S1 ev = .ok (o, S)
  | [], S0, os, h => by
    simp only [List.nil_append, Surf.run, bind, Except.bind] at h
    cases hx : Surf.step b k S0 ev with
    | error e => rw [hx] at h; cases h
    | ok v =>
      rw [hx] at h
      have := congrArg Prod.snd (Except.ok.inj h)
      simp only at this
      exact ⟨[], S0, v.1, rfl, by rw [hx, ← this]⟩
  | e :: es, S0, os, h => by
    simp only [List.cons_append, Surf.run, bind, Except.bind] at h ⊢
    cases hs : Surf.step b k S0 e with
    | error x => rw [hs] at h; cases h
    | ok v =>
      rw [hs] at h
      simp only at h
      cases hr : Surf.run b k v.2 (es ++ [ev]) with
      | error x => rw [hr] at h; cases h
      | ok w =>
        rw [hr] at h
        have := congrArg Prod.snd (Except.ok.inj h)
        simp only at this
        subst this
        obtain ⟨os1, S1, o, h1, h2⟩ := run_cut ev es v.2 w.1 hr
        exact ⟨v.1 :: os1, S1, o, by
          simp only [h1]; rfl, h2⟩

/-- After a finished block nothing waits. -/
theorem run_ends {b : Build} {k : DabKind β T} (hk : ∀ d, (k.tilesOf d).Nodup) {S0 S : Surf β T}
    {st0 : Spec.OpQueue.St β} {c : TileIndex → T} (hst : Surf.Stands b k S0 st0 c)
    {es : List (Surf.Event β)} {order : List TileIndex → List TileIndex} {os : List (List T)}
    (ho : ∀ e ∈ es ++ [.endAtomic order], OrderOk e)
    (h : Surf.run b k S0 (es ++ [.endAtomic order]) = .ok (os, S)) :
    ∃ st, OpQueue.Rel b S.queue st ∧ ∀ t, st.pend t = [] := by
  obtain ⟨os1, S1, o, h1, h2⟩ := run_cut _ es S0 os h
  obtain ⟨-, st1, hst1⟩ := Surf.stands_run hk es S0 S1 st0 c os1 hst
    (fun e he => ho e (by simp [he])) h1
  obtain ⟨S', st', he, hst', hp, -, -⟩ := Surf.stands_end hst1 order (ho (.endAtomic order) (by simp))
  simp only [Surf.step, he, bind, Except.bind] at h2
  have := congrArg Prod.snd (Except.ok.inj h2)
  simp only at this
  subst this
  exact ⟨st', hst'.rel, hp⟩

/-! ### Sessions that fail -/

theorem queueDab_err {b : Build} {al : Alloc β} (hal : AllocOk al) {s : State β}
    {H : List Nat} {G : Nat → List (Nat × Nat)} (h : Inv b s.mem s.q.tileMap H G)
    (t : TileIndex) (d : β) {e : Fault}
    (he : OpQueue.add b (absQ (contents s.mem G) s.q) t d = .error e) :
    queueDab al b s t d = .error e := by
  obtain ⟨ho, hf, hi⟩ := hal s.clock s.mem h.bounded
  have h1 := inv_alloc h (o := (al s.clock s.mem).op) d ho
  have hq := absQ_ops h (o := (al s.clock s.mem).op) (some d) (fun a ha hc =>
    (h.opLive _).mpr (Or.inr ⟨a, ha, hc⟩) ho)
  have := add_sim (q := s.q) h1 t (o := (al s.clock s.mem).op) (d := d) (by simp)
    (by simp [upd_self]) (af := (al s.clock s.mem).fifo) hf (ai := (al s.clock s.mem).item) hi
  rw [hq, he] at this
  simp only at this
  simp only [queueDab, this, bind, Except.bind]

theorem dab_err {b : Build} {al : Alloc β} (hal : AllocOk al) (d : β) {e : Fault} :
    ∀ (ts : List TileIndex) (s : State β) (H : List Nat) (G : Nat → List (Nat × Nat))
      (st : Spec.OpQueue.St β), Inv b s.mem s.q.tileMap H G → Full P s.q.tileMap G →
      OpQueue.Rel b (absQ (contents s.mem G) s.q) st →
      ts.foldlM (fun q t => OpQueue.add b q t d) (absQ (contents s.mem G) s.q) = .error e →
      ts.foldlM (fun s t => queueDab al b s t d) s = .error e ∧
        (e = .intOverflow ∨ e = .assertFail)
  | [], _, _, _, _, _, _, _, he => by cases he
  | t :: ts, s, H, G, st, h, hf, hr, he => by
    rw [List.foldlM_cons] at he
    rcases OpQueue.add_spec hr t d with ⟨_, hx⟩ | ⟨_, _, _, hx⟩ | ⟨_, _, q1, hx, hr1, _⟩
    · rw [hx] at he
      cases he
      exact ⟨by rw [List.foldlM_cons, queueDab_err hal h t d hx]; rfl, Or.inl rfl⟩
    · rw [hx] at he
      cases he
      exact ⟨by rw [List.foldlM_cons, queueDab_err hal h t d hx]; rfl, Or.inr rfl⟩
    · rw [hx] at he
      obtain ⟨s1, G1, hq1, hi1, hf1, ha1⟩ := queueDab_sim hal h hf t d hx
      subst ha1
      obtain ⟨h1, h2⟩ := dab_err hal d ts s1 H G1 _ hi1 hf1 hr1 he
      exact ⟨by rw [List.foldlM_cons, hq1]; exact h1, h2⟩

theorem run_err {b : Build} {al : Alloc β} (hal : AllocOk al) (k : DabKind β T)
    (hk : ∀ d, (k.tilesOf d).Nodup) {e : Fault} :
    ∀ (es : List (Surf.Event β)) (s : State β) (H : List Nat) (G : Nat → List (Nat × Nat))
      (S : Surf β T) (st : Spec.OpQueue.St β) (c : TileIndex → T), Rep P b s H G S →
      Surf.Stands b k S st c → (∀ e ∈ es, OrderOk e) → Surf.run b k S es = .error e →
      (∃ N, ∀ fuel ≥ N, run al b k.tilesOf fuel s es = .error e) ∧
        (e = .intOverflow ∨ e = .assertFail)
  | [], _, _, _, _, _, _, _, _, _, he => by cases he
  | ev :: es, s, H, G, S, st, c, h, hst, ho, he => by
    simp only [Surf.run, bind, Except.bind] at he
    cases h1 : Surf.step b k S ev with
    | error e' =>
      rw [h1] at he
      cases he
      cases ev with
      | dab d =>
        simp only [Surf.step, Surf.drawDab, bind, Except.bind] at h1
        rw [h.queue] at h1
        cases h2 : (k.tilesOf d).foldlM (fun q t => OpQueue.add b q t d)
            (absQ (contents s.mem G) s.q) with
        | ok aq => rw [h2] at h1; cases h1
        | error e' =>
          rw [h2] at h1
          cases h1
          obtain ⟨h3, h4⟩ := dab_err hal d _ s H G st h.inv h.full (by rw [← h.queue]; exact hst.rel) h2
          refine ⟨⟨0, fun fuel _ => ?_⟩, h4⟩
          simp only [run, step, h3, bind, Except.bind]
      | sample ts =>
        obtain ⟨S', st', hx, _⟩ := Surf.stands_sample ts S st c hst
        simp only [Surf.step] at h1
        rw [hx] at h1; cases h1
      | endAtomic order =>
        obtain ⟨S', st', hx, _⟩ := Surf.stands_end hst order (ho (.endAtomic order) (by simp))
        simp only [Surf.step, hx, bind, Except.bind] at h1
        cases h1
    | ok x =>
      rw [h1] at he
      simp only at he
      cases h2 : Surf.run b k x.2 es with
      | ok y => rw [h2] at he; cases he
      | error e' =>
        rw [h2] at he
        cases he
        obtain ⟨N1, r1, s1, G1, hr1, hrep1, _⟩ := step_sim hal k h ev (o := x.1) (S' := x.2) h1
        have hone : Surf.run b k S [ev] = .ok ([x.1], x.2) := by
          simp only [Surf.run, bind, Except.bind, h1]; rfl
        obtain ⟨_, st1, hst1⟩ := Surf.stands_run hk [ev] S x.2 st c [x.1] hst
          (fun e' he' => ho e' (by rw [List.mem_singleton.mp he']; simp)) hone
        obtain ⟨⟨N2, hr2⟩, hcase⟩ := run_err hal k hk es s1 H G1 x.2 st1 _ hrep1 hst1
          (fun e' he' => ho e' (by simp [he'])) h2
        refine ⟨⟨max N1 N2, fun fuel hf => ?_⟩, hcase⟩
        simp only [run, hr1 fuel (le_trans (le_max_left _ _) hf), bind, Except.bind,
          hr2 fuel (le_trans (le_max_right _ _) hf)]

end QueueMemory

end Verif
