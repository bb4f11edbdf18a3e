import Verif.Spec.QueueMemory
import Verif.Lemmas.Fifo
import Verif.Lemmas.OperationQueue

/-! Helper lemmas for the operation queue with its memory. -/

namespace Verif

namespace TileMap

open Spec.TileMap (InBox)

variable {α γ : Type}

/-- Replace every item. -/
def mapT (f : α → γ) (m : TileMap α) : TileMap γ := ⟨m.size, m.map.map (Option.map f)⟩

theorem mapT_contains (f : α → γ) (m : TileMap α) (i : TileIndex) :
    (mapT f m).contains i = m.contains i := rfl

theorem mapT_get (f : α → γ) (m : TileMap α) (i : TileIndex) :
    (mapT f m).get i = (m.get i).map (Option.map f) := by
  simp only [get, mapT, bind, Except.bind]
  cases h : offset m.size i with
  | error e => rfl
  | ok o =>
    simp only [List.getElem?_map]
    cases m.map[o.toNat]? <;> rfl

theorem mapT_put (f : α → γ) (m : TileMap α) (i : TileIndex) (v : Option α) :
    (mapT f m).put i (v.map f) = (m.put i v).map (mapT f) := by
  simp only [put, mapT, bind, Except.bind]
  cases h : offset m.size i with
  | error e => rfl
  | ok o =>
    simp only [List.length_map]
    by_cases hl : o.toNat < m.map.length
    · rw [if_pos hl, if_pos hl]
      simp [pure, Except.pure, Except.map, List.map_set, mapT]
    · rw [if_neg hl, if_neg hl]; rfl

theorem mapT_new (f : α → γ) (s : Int) :
    (new s : Except Fault (TileMap γ)) = (new s : Except Fault (TileMap α)).map (mapT f) := by
  simp only [new, bind, Except.bind]
  cases h : mapSize s with
  | error e => rfl
  | ok n => simp [pure, Except.pure, Except.map, mapT]

theorem mapT_copy (f : α → γ) (self : TileMap α) : ∀ (l : List TileIndex) (other : TileMap α),
    l.foldlM (copyStep (mapT f self)) (mapT f other)
      = (l.foldlM (copyStep self) other).map (mapT f)
  | [], other => rfl
  | i :: l, other => by
    rw [List.foldlM_cons, List.foldlM_cons]
    have h : copyStep (mapT f self) (mapT f other) i
        = (copyStep self other i).map (mapT f) := by
      simp only [copyStep, mapT_get, bind, Except.bind]
      cases self.get i with
      | error e => rfl
      | ok v => exact mapT_put f other i v
    rw [h]
    cases hc : copyStep self other i with
    | error e => rfl
    | ok o => exact mapT_copy f self l o

theorem mapT_copyTo (f : α → γ) (self other : TileMap α) :
    (mapT f self).copyTo (mapT f other) = (self.copyTo other).map (mapT f) := by
  unfold copyTo
  by_cases h : other.size ≥ self.size
  · have h' : (mapT f other).size ≥ (mapT f self).size := h
    rw [if_neg (not_not.mpr h), if_neg (not_not.mpr h')]
    exact mapT_copy f self _ other
  · have h' : ¬ (mapT f other).size ≥ (mapT f self).size := h
    rw [if_pos h, if_pos h']; rfl

theorem at'_mapT (f : α → γ) (m : TileMap α) (i : TileIndex) :
    (mapT f m).at' i = (m.at' i).map f := by
  simp only [at', mapT, List.getElem?_map]
  cases m.map[(off m.size i).toNat]? <;> rfl

theorem wf_mapT {f : α → γ} {m : TileMap α} (h : WF m) : WF (mapT f m) :=
  ⟨h.1, by simpa [mapT] using h.2⟩

/-- Every position of the array is the slot of a tile. -/
theorem off_surj {m : TileMap α} (h : WF m) {p : Nat} (hp : p < m.map.length) :
    ∃ i, InBox m.size i ∧ (off m.size i).toNat = p := by
  obtain ⟨⟨h1, _⟩, h2⟩ := h
  set s := m.size with hs
  have hp' : (p : Int) < 4 * s * s := by omega
  have h2s : (0 : Int) < 2 * s := by omega
  have e := Int.emod_add_mul_ediv (p : Int) (2 * s)
  have r0 := Int.emod_nonneg (p : Int) (by omega : (2 * s : Int) ≠ 0)
  have r1 := Int.emod_lt_of_pos (p : Int) h2s
  have q0 : 0 ≤ (p : Int) / (2 * s) := Int.ediv_nonneg (by omega) (by omega)
  have q1 : (p : Int) / (2 * s) < 2 * s := by
    apply Int.ediv_lt_of_lt_mul h2s; nlinarith
  refine ⟨⟨(p : Int) % (2 * s) - s, (p : Int) / (2 * s) - s⟩, ⟨?_, ?_, ?_, ?_⟩, ?_⟩
  · show -s ≤ (p : Int) % (2 * s) - s; omega
  · show (p : Int) % (2 * s) - s < s; omega
  · show -s ≤ (p : Int) / (2 * s) - s; omega
  · show (p : Int) / (2 * s) - s < s; omega
  · have : off s ⟨(p : Int) % (2 * s) - s, (p : Int) / (2 * s) - s⟩ = p := by
      simp only [off]
      have h3 : (s + ((p : Int) / (2 * s) - s)) * (s * 2) + s + ((p : Int) % (2 * s) - s)
          = (p : Int) % (2 * s) + 2 * s * ((p : Int) / (2 * s)) := by ring
      rw [h3, e]
    rw [this]; simp

theorem ext_at {m m' : TileMap α} (h : WF m) (h' : WF m') (hs : m.size = m'.size)
    (hat : ∀ i, InBox m.size i → m.at' i = m'.at' i) : m = m' := by
  obtain ⟨s, l⟩ := m
  obtain ⟨s', l'⟩ := m'
  simp only at hs
  subst hs
  congr 1
  have hlen : l.length = l'.length := by
    have a := h.2; have b := h'.2
    simp only at a b; omega
  apply List.ext_getElem hlen
  intro p hp hp'
  obtain ⟨i, hi, ho⟩ := off_surj h hp
  have := hat i hi
  simp only [at'] at this
  rw [ho] at this
  simpa [List.getElem?_eq_getElem hp, List.getElem?_eq_getElem hp'] using this

end TileMap

namespace QueueMemory

open Spec.QueueMemory

open OpQueue (SizeOk sizeOk_grow sizeOk_valid sizeOk_init)
open TileMap (WF)
open Spec.TileMap (InBox)

variable {β : Type} {P : Prop}

/-- The queue with every pointer replaced by what it stands for. -/
def absQ (f : Nat → List β) (q : Queue) : OpQueue β := ⟨q.tileMap.mapT f, q.dirty, q.dirtyCap⟩

theorem absQ_resize (f : Nat → List β) (q : Queue) (n : Int) :
    (absQ f q).resize n = (q.resize n).map (absQ f) := by
  simp only [OpQueue.resize, Queue.resize, bind, Except.bind]
  rw [TileMap.mapT_new f]
  cases h : (TileMap.new n : Except Fault (TileMap Nat)) with
  | error e => rfl
  | ok nm =>
    simp only [Except.map]
    cases hn : TileMap.mapSize n with
    | error e => rfl
    | ok c =>
      simp only [absQ, TileMap.mapT_copyTo]
      cases hc : q.tileMap.copyTo nm with
      | error e => rfl
      | ok m =>
        simp only [Except.map]
        by_cases hd : (q.dirty.length : Int) ≤ c
        · simp only [hd, not_true_eq_false, if_false]; rfl
        · simp only [hd, not_false_eq_true, if_true]; rfl

theorem absQ_growLoop (f : Nat → List β) (b : Build) (idx : TileIndex) : ∀ (n : Nat) (q : Queue),
    OpQueue.growLoop b idx n (absQ f q) = (q.growLoop b idx n).map (absQ f)
  | 0, q => by
    simp only [OpQueue.growLoop, Queue.growLoop]
    show (if q.tileMap.contains idx = true then _ else _) = _
    by_cases h : q.tileMap.contains idx = true
    · rw [if_pos h, if_pos h]; rfl
    · rw [if_neg h, if_neg h]; rfl
  | n + 1, q => by
    simp only [OpQueue.growLoop, Queue.growLoop]
    show (if q.tileMap.contains idx = true then _ else _) = _
    by_cases h : q.tileMap.contains idx = true
    · rw [if_pos h, if_pos h]; rfl
    · rw [if_neg h, if_neg h]
      show (chk (b.growSize q.tileMap.size) >>= _) = _
      cases hc : chk (b.growSize q.tileMap.size) with
      | error e => rfl
      | ok ns =>
        show ((absQ f q).resize ns >>= _) = Except.map (absQ f) (q.resize ns >>= _)
        rw [absQ_resize]
        cases hr : q.resize ns with
        | error e => rfl
        | ok q1 => exact absQ_growLoop f b idx n q1

theorem grow_step {b : Build} {q q' : Queue} {ns : Int} (hs : SizeOk b q.tileMap.size)
    (hw : WF q.tileMap) (hc : chk (b.growSize q.tileMap.size) = .ok ns)
    (hr : q.resize ns = .ok q') :
    SizeOk b q'.tileMap.size ∧ WF q'.tileMap ∧ q.tileMap.size ≤ q'.tileMap.size ∧
      (∀ i, InBox q.tileMap.size i → q'.tileMap.at' i = q.tileMap.at' i) ∧
      (∀ i, InBox q'.tileMap.size i → ¬ InBox q.tileMap.size i → q'.tileMap.at' i = none) := by
  have hns : ns = b.growSize q.tileMap.size := by
    simp only [chk] at hc
    split_ifs at hc
    exact (Except.ok.inj hc).symm
  rcases sizeOk_grow hs with ⟨h1, h2⟩ | ⟨_, h2, _⟩
  · rw [← hns] at h1 h2
    obtain ⟨n, hn, hnwf, hnsz, hnat⟩ := TileMap.new_ok (α := Nat) (sizeOk_valid h1)
    obtain ⟨m', hm', hwf', hsz', hold, hnew⟩ :=
      TileMap.copyTo_ok hw hnwf (by rw [hnsz]; omega)
    simp only [Queue.resize, hn, TileMap.mapSize_ok (sizeOk_valid h1), hm', bind, Except.bind] at hr
    split at hr
    · cases hr
    · have := Except.ok.inj hr
      subst this
      have hsz : m'.size = ns := by rw [hsz', hnsz]
      refine ⟨by simpa only [hsz] using h1, hwf', by simp only [hsz]; omega, hold, ?_⟩
      intro i hi hni
      simp only [hsz] at hi
      rw [hnew i (by rw [hnsz]; exact hi) hni, hnat]
  · rw [← hns] at h2
    simp only [Queue.resize, TileMap.new, TileMap.mapSize_err h2, bind, Except.bind] at hr
    cases hr

theorem growLoop_keeps {b : Build} {idx : TileIndex} : ∀ (n : Nat) (q q' : Queue),
    SizeOk b q.tileMap.size → WF q.tileMap → q.growLoop b idx n = .ok q' →
    SizeOk b q'.tileMap.size ∧ WF q'.tileMap ∧ q.tileMap.size ≤ q'.tileMap.size ∧
      InBox q'.tileMap.size idx ∧
      (∀ i, InBox q.tileMap.size i → q'.tileMap.at' i = q.tileMap.at' i) ∧
      (∀ i, InBox q'.tileMap.size i → ¬ InBox q.tileMap.size i → q'.tileMap.at' i = none)
  | 0, q, q', hs, hw, h => by
    simp only [Queue.growLoop] at h
    by_cases hc : q.tileMap.contains idx = true
    · rw [if_pos hc] at h
      cases h
      exact ⟨hs, hw, le_rfl, (TileMap.contains_iff _ _).mp hc, fun _ _ => rfl,
        fun _ a b => absurd a b⟩
    · rw [if_neg hc] at h; cases h
  | n + 1, q, q', hs, hw, h => by
    simp only [Queue.growLoop] at h
    by_cases hc : q.tileMap.contains idx = true
    · rw [if_pos hc] at h
      cases h
      exact ⟨hs, hw, le_rfl, (TileMap.contains_iff _ _).mp hc, fun _ _ => rfl,
        fun _ a b => absurd a b⟩
    · rw [if_neg hc] at h
      simp only [bind, Except.bind] at h
      cases hk : chk (b.growSize q.tileMap.size) with
      | error e => rw [hk] at h; cases h
      | ok ns =>
        rw [hk] at h
        simp only at h
        cases hr : q.resize ns with
        | error e => rw [hr] at h; cases h
        | ok q1 =>
          rw [hr] at h
          obtain ⟨a1, a2, a3, a4, a5⟩ := grow_step hs hw hk hr
          obtain ⟨b1, b2, b3, b4, b5, b6⟩ := growLoop_keeps n q1 q' a1 a2 h
          refine ⟨b1, b2, by omega, b4, ?_, ?_⟩
          · intro i hi
            rw [b5 i (TileMap.inBox_mono a3 hi), a4 i hi]
          · intro i hi hni
            by_cases hi1 : InBox q1.tileMap.size i
            · rw [b5 i hi1, a5 i hi1 hni]
            · exact b6 i hi hi1

/-! ### Which blocks are in use -/

/-- `G h` lists the items of the `struct fifo` at `h` with the operations they point to; `H` are the
operations that are in other hands.  Every block belongs to exactly one owner, and there are no other
blocks. -/
structure Inv (b : Build) (m : Mem β) (tm : TileMap Nat) (H : List Nat) (G : Nat → List (Nat × Nat)) :
    Prop where
  size : SizeOk b tm.size
  wf : WF tm
  slotLive : ∀ i h, InBox tm.size i → tm.at' i = some h → m.fifos h ≠ none
  slotInj : ∀ i j h, InBox tm.size i → InBox tm.size j → tm.at' i = some h → tm.at' j = some h → i = j
  fifoUsed : ∀ h, m.fifos h ≠ none → ∃ i, InBox tm.size i ∧ tm.at' i = some h
  holds : ∀ h hdr, m.fifos h = some hdr → Fifo.Holds ⟨m.items, hdr⟩ (G h)
  itemOwn : ∀ h h' a, m.fifos h ≠ none → m.fifos h' ≠ none → a ∈ (G h).map Prod.fst →
    a ∈ (G h').map Prod.fst → h = h'
  itemUsed : ∀ a, m.items a ≠ none → ∃ h, m.fifos h ≠ none ∧ a ∈ (G h).map Prod.fst
  opOwn : ∀ h h' o, m.fifos h ≠ none → m.fifos h' ≠ none → o ∈ (G h).map Prod.snd →
    o ∈ (G h').map Prod.snd → h = h'
  opNodup : ∀ h, m.fifos h ≠ none → ((G h).map Prod.snd).Nodup
  opLive : ∀ o, m.ops o ≠ none ↔ o ∈ H ∨ ∃ h, m.fifos h ≠ none ∧ o ∈ (G h).map Prod.snd
  opHeld : ∀ o h, o ∈ H → m.fifos h ≠ none → o ∉ (G h).map Prod.snd
  held : H.Nodup
  bounded : ∃ N, ∀ a, N ≤ a → m.fifos a = none ∧ m.items a = none ∧ m.ops a = none

/-- What the operations of a `struct fifo` say. -/
def contents (m : Mem β) (G : Nat → List (Nat × Nat)) (h : Nat) : List β :=
  (G h).filterMap fun p => m.ops p.2

theorem upd_self {γ : Type} (f : Nat → Option γ) (a : Nat) (v : Option γ) : upd f a v a = v := by
  simp [upd]

theorem upd_ne {γ : Type} (f : Nat → Option γ) {a c : Nat} (v : Option γ) (h : c ≠ a) :
    upd f a v c = f c := by simp [upd, h]

theorem inv_grow {b : Build} {m : Mem β} {q q' : Queue} {H : List Nat} {G : Nat → List (Nat × Nat)}
    (h : Inv b m q.tileMap H G) {idx : TileIndex} {n : Nat} (hg : q.growLoop b idx n = .ok q') :
    Inv b m q'.tileMap H G ∧ InBox q'.tileMap.size idx ∧
      (∀ i, InBox q.tileMap.size i → q'.tileMap.at' i = q.tileMap.at' i) := by
  obtain ⟨b1, b2, b3, b4, b5, b6⟩ := growLoop_keeps n q q' h.size h.wf hg
  have key : ∀ i a, InBox q'.tileMap.size i → q'.tileMap.at' i = some a →
      InBox q.tileMap.size i ∧ q.tileMap.at' i = some a := by
    intro i a hi ha
    by_cases hio : InBox q.tileMap.size i
    · exact ⟨hio, by rw [← b5 i hio]; exact ha⟩
    · rw [b6 i hi hio] at ha; cases ha
  refine ⟨⟨b1, b2, ?_, ?_, ?_, h.holds, h.itemOwn, h.itemUsed, h.opOwn, h.opNodup, h.opLive,
    h.opHeld, h.held, h.bounded⟩, b4, b5⟩
  · intro i a hi ha
    obtain ⟨x, y⟩ := key i a hi ha
    exact h.slotLive i a x y
  · intro i j a hi hj hai haj
    obtain ⟨x, y⟩ := key i a hi hai
    obtain ⟨x', y'⟩ := key j a hj haj
    exact h.slotInj i j a x x' y y'
  · intro a ha
    obtain ⟨i, hi, hia⟩ := h.fifoUsed a ha
    exact ⟨i, TileMap.inBox_mono b3 hi, by rw [b5 i hi]; exact hia⟩

theorem inv_alloc {b : Build} {m : Mem β} {tm : TileMap Nat} {H : List Nat}
    {G : Nat → List (Nat × Nat)} (h : Inv b m tm H G) {o : Nat} (d : β) (ho : m.ops o = none) :
    Inv b { m with ops := upd m.ops o (some d) } tm (o :: H) G := by
  have hno : ¬ (o ∈ H ∨ ∃ h, m.fifos h ≠ none ∧ o ∈ (G h).map Prod.snd) :=
    fun hc => (h.opLive o).mpr hc ho
  push Not at hno
  refine ⟨h.size, h.wf, h.slotLive, h.slotInj, h.fifoUsed, h.holds, h.itemOwn, h.itemUsed, h.opOwn,
    h.opNodup, ?_, ?_, List.nodup_cons.mpr ⟨hno.1, h.held⟩, ?_⟩
  · intro x
    by_cases hx : x = o
    · subst hx; simp [upd_self]
    · simp only [upd_ne _ _ hx, List.mem_cons, hx, false_or]
      exact h.opLive x
  · intro x a hx ha
    rcases List.mem_cons.mp hx with rfl | hx
    · exact hno.2 a ha
    · exact h.opHeld x a hx ha
  · obtain ⟨N, hN⟩ := h.bounded
    refine ⟨max N (o + 1), fun a ha => ?_⟩
    obtain ⟨x, y, z⟩ := hN a (by omega)
    exact ⟨x, y, by simp only [upd_ne _ _ (show a ≠ o by omega), z]⟩

theorem inv_free {b : Build} {m : Mem β} {tm : TileMap Nat} {H : List Nat}
    {G : Nat → List (Nat × Nat)} (h : Inv b m tm H G) {o : Nat} (ho : o ∈ H) :
    Inv b { m with ops := upd m.ops o none } tm (H.erase o) G := by
  refine ⟨h.size, h.wf, h.slotLive, h.slotInj, h.fifoUsed, h.holds, h.itemOwn, h.itemUsed, h.opOwn,
    h.opNodup, ?_, ?_, h.held.erase o, ?_⟩
  · intro x
    by_cases hx : x = o
    · subst hx
      simp only [upd_self, ne_eq, not_true_eq_false, false_iff, not_or, not_exists, not_and]
      exact ⟨fun hm => (List.Nodup.mem_erase_iff h.held).mp hm |>.1 rfl,
        fun a ha => h.opHeld x a ho ha⟩
    · simp only [upd_ne _ _ hx, List.Nodup.mem_erase_iff h.held, ne_eq, hx, not_false_eq_true,
        true_and]
      exact h.opLive x
  · intro x a hx ha
    exact h.opHeld x a (List.mem_of_mem_erase hx) ha
  · obtain ⟨N, hN⟩ := h.bounded
    refine ⟨N, fun a ha => ?_⟩
    obtain ⟨x, y, z⟩ := hN a ha
    refine ⟨x, y, ?_⟩
    by_cases hao : a = o
    · subst hao; simp [upd_self]
    · simp only [upd_ne _ _ hao, z]

/-- A new, empty `struct fifo` in an unused slot. -/
theorem inv_newFifo {b : Build} {m : Mem β} {tm tm' : TileMap Nat} {H : List Nat}
    {G : Nat → List (Nat × Nat)} (h : Inv b m tm H G) {idx : TileIndex} (hi : InBox tm.size idx)
    (hn : tm.at' idx = none) {a : Nat} (ha : m.fifos a = none)
    (hp : tm.put idx (some a) = .ok tm') :
    Inv b { m with fifos := upd m.fifos a (some Fifo.new) } tm' H (Function.update G a []) ∧
      tm'.size = tm.size ∧ tm'.at' idx = some a ∧
      (∀ j, InBox tm.size j → j ≠ idx → tm'.at' j = tm.at' j) := by
  obtain ⟨hw, hsz, hat, hoth⟩ := TileMap.put_wf h.wf hi hp
  have hlive : ∀ x, upd m.fifos a (some Fifo.new) x ≠ none → x = a ∨ (x ≠ a ∧ m.fifos x ≠ none) := by
    intro x hx
    by_cases hxa : x = a
    · exact Or.inl hxa
    · rw [upd_ne _ _ hxa] at hx; exact Or.inr ⟨hxa, hx⟩
  have hslot : ∀ i x, InBox tm.size i → tm'.at' i = some x →
      (i = idx ∧ x = a) ∨ (i ≠ idx ∧ x ≠ a ∧ tm.at' i = some x) := by
    intro i x hib hix
    by_cases hii : i = idx
    · subst hii; rw [hat] at hix; exact Or.inl ⟨rfl, (Option.some.inj hix).symm⟩
    · rw [hoth i hib hii] at hix
      refine Or.inr ⟨hii, ?_, hix⟩
      rintro rfl
      exact h.slotLive i x hib hix ha
  have hG : ∀ x, x ≠ a → Function.update G a [] x = G x := fun x hx => Function.update_of_ne hx _ _
  have hGa : Function.update G a [] a = ([] : List (Nat × Nat)) := Function.update_self _ _ _
  refine ⟨⟨by rw [hsz]; exact h.size, hw, ?_, ?_, ?_, ?_, ?_, ?_, ?_, ?_, ?_, ?_, h.held, ?_⟩,
    hsz, hat, hoth⟩
  · intro i x hib hix
    rw [hsz] at hib
    rcases hslot i x hib hix with ⟨_, rfl⟩ | ⟨_, hx, hix'⟩
    · simp [upd_self]
    · simp only [upd_ne _ _ hx]; exact h.slotLive i x hib hix'
  · intro i j x hib hjb hix hjx
    rw [hsz] at hib hjb
    rcases hslot i x hib hix with ⟨rfl, rfl⟩ | ⟨_, hx, hix'⟩
    · rcases hslot j x hjb hjx with ⟨rfl, _⟩ | ⟨_, hx, _⟩
      · rfl
      · exact absurd rfl hx
    · rcases hslot j x hjb hjx with ⟨_, rfl⟩ | ⟨_, _, hjx'⟩
      · exact absurd rfl hx
      · exact h.slotInj i j x hib hjb hix' hjx'
  · intro x hx
    rcases hlive x hx with rfl | ⟨hxa, hx⟩
    · exact ⟨idx, by rw [hsz]; exact hi, hat⟩
    · obtain ⟨i, hib, hix⟩ := h.fifoUsed x hx
      refine ⟨i, by rw [hsz]; exact hib, ?_⟩
      rw [hoth i hib ?_]; exact hix
      rintro rfl; rw [hn] at hix; cases hix
  · intro x hdr hx
    by_cases hxa : x = a
    · subst hxa
      simp only [upd_self] at hx
      cases Option.some.inj hx
      rw [hGa]
      exact ⟨rfl, by simp, rfl⟩
    · simp only [upd_ne _ _ hxa] at hx
      rw [hG x hxa]; exact h.holds x hdr hx
  · intro x y i hx hy hix hiy
    rcases hlive x hx with rfl | ⟨hxa, hx⟩
    · rw [hGa] at hix; simp at hix
    · rcases hlive y hy with rfl | ⟨hya, hy⟩
      · rw [hGa] at hiy; simp at hiy
      · rw [hG x hxa] at hix; rw [hG y hya] at hiy
        exact h.itemOwn x y i hx hy hix hiy
  · intro i hi'
    obtain ⟨x, hx, hix⟩ := h.itemUsed i hi'
    have hxa : x ≠ a := by rintro rfl; exact hx ha
    exact ⟨x, by simp only [upd_ne _ _ hxa]; exact hx, by rw [hG x hxa]; exact hix⟩
  · intro x y i hx hy hix hiy
    rcases hlive x hx with rfl | ⟨hxa, hx⟩
    · rw [hGa] at hix; simp at hix
    · rcases hlive y hy with rfl | ⟨hya, hy⟩
      · rw [hGa] at hiy; simp at hiy
      · rw [hG x hxa] at hix; rw [hG y hya] at hiy
        exact h.opOwn x y i hx hy hix hiy
  · intro x hx
    rcases hlive x hx with rfl | ⟨hxa, hx⟩
    · rw [hGa]; simp
    · rw [hG x hxa]; exact h.opNodup x hx
  · intro o
    rw [h.opLive o]
    apply or_congr_right
    constructor
    · rintro ⟨x, hx, hox⟩
      have hxa : x ≠ a := by rintro rfl; exact hx ha
      exact ⟨x, by simp only [upd_ne _ _ hxa]; exact hx, by rw [hG x hxa]; exact hox⟩
    · rintro ⟨x, hx, hox⟩
      rcases hlive x hx with rfl | ⟨hxa, hx⟩
      · rw [hGa] at hox; simp at hox
      · exact ⟨x, hx, by rw [hG x hxa] at hox; exact hox⟩
  · intro o x ho hx
    rcases hlive x hx with rfl | ⟨hxa, hx⟩
    · rw [hGa]; simp
    · rw [hG x hxa]; exact h.opHeld o x ho hx
  · obtain ⟨N, hN⟩ := h.bounded
    refine ⟨max N (a + 1), fun c hc => ?_⟩
    obtain ⟨x, y, z⟩ := hN c (by omega)
    exact ⟨by simp only [upd_ne _ _ (show c ≠ a by omega), x], y, z⟩

theorem le_sum {c : Nat} : ∀ {l : List Nat}, c ∈ l → c ≤ l.sum
  | x :: l, h => by
    rcases List.mem_cons.mp h with rfl | h
    · simp
    · have := le_sum h
      simp only [List.sum_cons]; omega

/-- Replacing the items of one `struct fifo`: what has to be shown. -/
theorem inv_change {b : Build} {m : Mem β} {tm : TileMap Nat} {H H' : List Nat}
    {G : Nat → List (Nat × Nat)} (h : Inv b m tm H G) {a : Nat} (ha : m.fifos a ≠ none)
    {s : Fifo.State Nat} {xs : List (Nat × Nat)} (hs : Fifo.Holds s xs)
    (hframe : ∀ i, i ∉ xs.map Prod.fst → i ∉ (G a).map Prod.fst → s.heap i = m.items i)
    (hgone : ∀ i, i ∈ (G a).map Prod.fst → i ∉ xs.map Prod.fst → s.heap i = none)
    (hnew : ∀ i, i ∈ xs.map Prod.fst → i ∈ (G a).map Prod.fst ∨ m.items i = none)
    (hnd : (xs.map Prod.snd).Nodup)
    (hH : H'.Nodup)
    (hmove : ∀ o, (o ∈ H ∨ o ∈ (G a).map Prod.snd) ↔ (o ∈ H' ∨ o ∈ xs.map Prod.snd))
    (hsep : ∀ o, o ∈ H' → o ∉ xs.map Prod.snd) :
    Inv b { m with items := s.heap, fifos := upd m.fifos a (some s.q) } tm H'
      (Function.update G a xs) := by
  have hlive : ∀ x, upd m.fifos a (some s.q) x ≠ none ↔ m.fifos x ≠ none := by
    intro x
    by_cases hxa : x = a
    · subst hxa; simp [upd_self, ha]
    · rw [upd_ne _ _ hxa]
  have hG : ∀ x, x ≠ a → Function.update G a xs x = G x := fun x hx => Function.update_of_ne hx _ _
  have hGa : Function.update G a xs a = xs := Function.update_self _ _ _
  -- the items of other queues are not those of this one
  have hother : ∀ x i, x ≠ a → m.fifos x ≠ none → i ∈ (G x).map Prod.fst →
      i ∉ xs.map Prod.fst ∧ i ∉ (G a).map Prod.fst := by
    intro x i hxa hx hix
    have h1 : i ∉ (G a).map Prod.fst := fun hia => hxa (h.itemOwn x a i hx ha hix hia)
    refine ⟨fun hixs => ?_, h1⟩
    rcases hnew i hixs with hh | hh
    · exact h1 hh
    · obtain ⟨hdr, hhdr⟩ := Option.ne_none_iff_exists'.mp hx
      exact Fifo.chain_alloc (h.holds x hdr hhdr).1 i hix hh
  have hotherOp : ∀ x o, x ≠ a → m.fifos x ≠ none → o ∈ (G x).map Prod.snd →
      o ∉ xs.map Prod.snd ∧ o ∉ H' := by
    intro x o hxa hx hox
    have h1 : ¬ (o ∈ H ∨ o ∈ (G a).map Prod.snd) := by
      rintro (hh | hh)
      · exact h.opHeld o x hh hx hox
      · exact hxa (h.opOwn x a o hx ha hox hh)
    rw [hmove o] at h1
    push Not at h1
    exact ⟨h1.2, h1.1⟩
  refine ⟨h.size, h.wf, ?_, h.slotInj, ?_, ?_, ?_, ?_, ?_, ?_, ?_, ?_, hH, ?_⟩
  · intro i x hib hix
    exact (hlive x).mpr (h.slotLive i x hib hix)
  · intro x hx
    exact h.fifoUsed x ((hlive x).mp hx)
  · intro x hdr hx
    by_cases hxa : x = a
    · subst hxa
      simp only [upd_self] at hx
      cases Option.some.inj hx
      rw [hGa]; exact hs
    · simp only [upd_ne _ _ hxa] at hx
      rw [hG x hxa]
      obtain ⟨h1, h2, h3⟩ := h.holds x hdr hx
      refine ⟨Fifo.chain_congr (fun i hi => ?_) h1, h2, h3⟩
      obtain ⟨y, z⟩ := hother x i hxa (by rw [hx]; simp) hi
      exact (hframe i y z).symm
  · intro x y i hx hy hix hiy
    rw [hlive] at hx hy
    by_cases hxa : x = a
    · by_cases hya : y = a
      · rw [hxa, hya]
      · subst hxa
        rw [hGa] at hix; rw [hG y hya] at hiy
        exact absurd hix (hother y i hya hy hiy).1
    · rw [hG x hxa] at hix
      by_cases hya : y = a
      · subst hya
        rw [hGa] at hiy
        exact absurd hiy (hother x i hxa hx hix).1
      · rw [hG y hya] at hiy
        exact h.itemOwn x y i hx hy hix hiy
  · intro i hi
    by_cases hix : i ∈ xs.map Prod.fst
    · exact ⟨a, (hlive a).mpr ha, by rw [hGa]; exact hix⟩
    · by_cases hig : i ∈ (G a).map Prod.fst
      · exact absurd (hgone i hig hix) hi
      · obtain ⟨x, hx, hxi⟩ := h.itemUsed i (by rw [← hframe i hix hig]; exact hi)
        have hxa : x ≠ a := by rintro rfl; exact hig hxi
        exact ⟨x, (hlive x).mpr hx, by rw [hG x hxa]; exact hxi⟩
  · intro x y o hx hy hox hoy
    rw [hlive] at hx hy
    by_cases hxa : x = a
    · by_cases hya : y = a
      · rw [hxa, hya]
      · subst hxa
        rw [hGa] at hox; rw [hG y hya] at hoy
        exact absurd hox (hotherOp y o hya hy hoy).1
    · rw [hG x hxa] at hox
      by_cases hya : y = a
      · subst hya
        rw [hGa] at hoy
        exact absurd hoy (hotherOp x o hxa hx hox).1
      · rw [hG y hya] at hoy
        exact h.opOwn x y o hx hy hox hoy
  · intro x hx
    rw [hlive] at hx
    by_cases hxa : x = a
    · subst hxa; rw [hGa]; exact hnd
    · rw [hG x hxa]; exact h.opNodup x hx
  · intro o
    rw [show (({ m with items := s.heap, fifos := upd m.fifos a (some s.q) } : Mem β).ops o ≠ none)
      ↔ m.ops o ≠ none from Iff.rfl, h.opLive o]
    constructor
    · rintro (ho | ⟨x, hx, hox⟩)
      · rcases (hmove o).mp (Or.inl ho) with hh | hh
        · exact Or.inl hh
        · exact Or.inr ⟨a, (hlive a).mpr ha, by rw [hGa]; exact hh⟩
      · by_cases hxa : x = a
        · subst hxa
          rcases (hmove o).mp (Or.inr hox) with hh | hh
          · exact Or.inl hh
          · exact Or.inr ⟨x, (hlive x).mpr hx, by rw [hGa]; exact hh⟩
        · exact Or.inr ⟨x, (hlive x).mpr hx, by rw [hG x hxa]; exact hox⟩
    · rintro (ho | ⟨x, hx, hox⟩)
      · rcases (hmove o).mpr (Or.inl ho) with hh | hh
        · exact Or.inl hh
        · exact Or.inr ⟨a, ha, hh⟩
      · rw [hlive] at hx
        by_cases hxa : x = a
        · subst hxa
          rw [hGa] at hox
          rcases (hmove o).mpr (Or.inr hox) with hh | hh
          · exact Or.inl hh
          · exact Or.inr ⟨x, hx, hh⟩
        · exact Or.inr ⟨x, hx, by rw [hG x hxa] at hox; exact hox⟩
  · intro o x ho hx
    rw [hlive] at hx
    by_cases hxa : x = a
    · subst hxa; rw [hGa]; exact hsep o ho
    · rw [hG x hxa]
      exact fun hox => (hotherOp x o hxa hx hox).2 ho
  · obtain ⟨N, hN⟩ := h.bounded
    refine ⟨max N (max (a + 1) ((xs.map Prod.fst).sum + 1)), fun c hc => ?_⟩
    obtain ⟨x, y, z⟩ := hN c (by omega)
    have hcx : c ∉ xs.map Prod.fst := by
      intro hm
      have := le_sum hm
      omega
    refine ⟨by simp only [upd_ne _ _ (show c ≠ a by omega), x], ?_, z⟩
    by_cases hcg : c ∈ (G a).map Prod.fst
    · exact hgone c hcg hcx
    · rw [show (({ m with items := s.heap, fifos := upd m.fifos a (some s.q) } : Mem β).items c)
        = s.heap c from rfl, hframe c hcx hcg]
      exact y

/-- An empty `struct fifo` is released and its slot cleared. -/
theorem inv_dropFifo {b : Build} {m : Mem β} {tm tm' : TileMap Nat} {H : List Nat}
    {G : Nat → List (Nat × Nat)} (h : Inv b m tm H G) {idx : TileIndex} (hi : InBox tm.size idx)
    {a : Nat} (hn : tm.at' idx = some a) (hG : G a = [])
    (hp : tm.put idx none = .ok tm') :
    Inv b { m with fifos := upd m.fifos a none } tm' H G ∧ tm'.size = tm.size ∧
      tm'.at' idx = none ∧ (∀ j, InBox tm.size j → j ≠ idx → tm'.at' j = tm.at' j) := by
  obtain ⟨hw, hsz, hat, hoth⟩ := TileMap.put_wf h.wf hi hp
  have hlive : ∀ x, upd m.fifos a none x ≠ none ↔ x ≠ a ∧ m.fifos x ≠ none := by
    intro x
    by_cases hxa : x = a
    · subst hxa; simp [upd_self]
    · simp [upd_ne _ _ hxa, hxa]
  have hslot : ∀ i x, InBox tm.size i → tm'.at' i = some x → i ≠ idx ∧ tm.at' i = some x ∧ x ≠ a := by
    intro i x hib hix
    have hii : i ≠ idx := by rintro rfl; rw [hat] at hix; cases hix
    rw [hoth i hib hii] at hix
    refine ⟨hii, hix, ?_⟩
    rintro rfl
    exact hii (h.slotInj i idx x hib hi hix hn)
  refine ⟨⟨by rw [hsz]; exact h.size, hw, ?_, ?_, ?_, ?_, ?_, ?_, ?_, ?_, ?_, ?_, h.held, ?_⟩,
    hsz, hat, hoth⟩
  · intro i x hib hix
    rw [hsz] at hib
    obtain ⟨_, h2, h3⟩ := hslot i x hib hix
    exact (hlive x).mpr ⟨h3, h.slotLive i x hib h2⟩
  · intro i j x hib hjb hix hjx
    rw [hsz] at hib hjb
    exact h.slotInj i j x hib hjb (hslot i x hib hix).2.1 (hslot j x hjb hjx).2.1
  · intro x hx
    obtain ⟨hxa, hx⟩ := (hlive x).mp hx
    obtain ⟨i, hib, hix⟩ := h.fifoUsed x hx
    refine ⟨i, by rw [hsz]; exact hib, ?_⟩
    rw [hoth i hib ?_]; exact hix
    rintro rfl
    rw [hn] at hix
    exact hxa (Option.some.inj hix).symm
  · intro x hdr hx
    have hxa : x ≠ a := by rintro rfl; simp [upd_self] at hx
    simp only [upd_ne _ _ hxa] at hx
    exact h.holds x hdr hx
  · intro x y i hx hy
    exact h.itemOwn x y i ((hlive x).mp hx).2 ((hlive y).mp hy).2
  · intro i hi'
    obtain ⟨x, hx, hix⟩ := h.itemUsed i hi'
    have hxa : x ≠ a := by rintro rfl; rw [hG] at hix; simp at hix
    exact ⟨x, (hlive x).mpr ⟨hxa, hx⟩, hix⟩
  · intro x y i hx hy
    exact h.opOwn x y i ((hlive x).mp hx).2 ((hlive y).mp hy).2
  · intro x hx
    exact h.opNodup x ((hlive x).mp hx).2
  · intro o
    rw [show (({ m with fifos := upd m.fifos a none } : Mem β).ops o ≠ none) ↔ m.ops o ≠ none from
      Iff.rfl, h.opLive o]
    apply or_congr_right
    constructor
    · rintro ⟨x, hx, hox⟩
      have hxa : x ≠ a := by rintro rfl; rw [hG] at hox; simp at hox
      exact ⟨x, (hlive x).mpr ⟨hxa, hx⟩, hox⟩
    · rintro ⟨x, hx, hox⟩
      exact ⟨x, ((hlive x).mp hx).2, hox⟩
  · intro o x ho hx
    exact h.opHeld o x ho ((hlive x).mp hx).2
  · obtain ⟨N, hN⟩ := h.bounded
    refine ⟨max N (a + 1), fun c hc => ?_⟩
    obtain ⟨x, y, z⟩ := hN c (by omega)
    exact ⟨by simp only [upd_ne _ _ (show c ≠ a by omega), x], y, z⟩

/-! ### The operations of the queue -/

theorem contents_nil {b : Build} {m : Mem β} {tm : TileMap Nat} {H : List Nat}
    {G : Nat → List (Nat × Nat)} (h : Inv b m tm H G) {a : Nat} (ha : m.fifos a ≠ none) :
    contents m G a = [] ↔ G a = [] := by
  cases hg : G a with
  | nil => simp [contents, hg]
  | cons p l =>
    have : m.ops p.2 ≠ none := (h.opLive p.2).mpr (Or.inr ⟨a, ha, by rw [hg]; simp⟩)
    obtain ⟨d, hd⟩ := Option.ne_none_iff_exists'.mp this
    simp [contents, hg, hd]

theorem push_step {b : Build} {m : Mem β} {tm : TileMap Nat} {H : List Nat}
    {G : Nat → List (Nat × Nat)} (h : Inv b m tm H G) {a : Nat} (ha : m.fifos a ≠ none) {o : Nat}
    {d : β} (ho : o ∈ H) (hd : m.ops o = some d) {ai : Nat} (hai : m.items ai = none) :
    ∃ hdr s, m.fifos a = some hdr ∧
      Fifo.peekFirst ⟨m.items, hdr⟩ = some (((G a).map Prod.snd).head?) ∧
      Fifo.push ⟨m.items, hdr⟩ (some ai) o = some s ∧
      Inv b { m with items := s.heap, fifos := upd m.fifos a (some s.q) } tm (H.erase o)
        (Function.update G a (G a ++ [(ai, o)])) ∧
      contents { m with items := s.heap, fifos := upd m.fifos a (some s.q) }
        (Function.update G a (G a ++ [(ai, o)])) a = contents m G a ++ [d] ∧
      ∀ x, x ≠ a → contents { m with items := s.heap, fifos := upd m.fifos a (some s.q) }
        (Function.update G a (G a ++ [(ai, o)])) x = contents m G x := by
  obtain ⟨hdr, hhdr⟩ := Option.ne_none_iff_exists'.mp ha
  have hh := h.holds a hdr hhdr
  obtain ⟨s, hpush, hs, hframe⟩ := Fifo.push_holds hh ai o hai
  have hnG : ai ∉ (G a).map Prod.fst := fun hm => Fifo.chain_alloc hh.1 ai hm hai
  have hnO : o ∉ (G a).map Prod.snd := h.opHeld o a ho ha
  refine ⟨hdr, s, hhdr, Fifo.peekFirst_holds hh, hpush, ?_, ?_, ?_⟩
  · refine inv_change h ha hs ?_ ?_ ?_ ?_ (h.held.erase o) ?_ ?_
    · intro i hi hi'
      refine hframe i ?_ hi'
      rintro rfl; exact hi (by simp)
    · intro i hi hi'
      exact absurd (by rw [List.map_append]; exact List.mem_append_left _ hi) hi'
    · intro i hi
      rw [List.map_append] at hi
      rcases List.mem_append.mp hi with hi | hi
      · exact Or.inl hi
      · simp at hi; subst hi; exact Or.inr hai
    · rw [List.map_append, List.nodup_append]
      refine ⟨h.opNodup a ha, by simp, ?_⟩
      intro x hx y hy hxy
      simp at hy; subst hy; subst hxy; exact hnO hx
    · intro x
      rw [List.map_append, List.mem_append, List.Nodup.mem_erase_iff h.held]
      by_cases hx : x = o
      · subst hx; simp [ho]
      · simp [hx]
    · intro x hx
      rw [List.Nodup.mem_erase_iff h.held] at hx
      rw [List.map_append, List.mem_append]
      rintro (hc | hc)
      · exact h.opHeld x a hx.2 ha hc
      · simp at hc; exact hx.1 hc
  · simp [contents, List.filterMap_append, hd]
  · intro x hx
    simp [contents, Function.update_of_ne hx]

theorem get_absQ {b : Build} {m : Mem β} {q : Queue} {H : List Nat} {G : Nat → List (Nat × Nat)}
    (h : Inv b m q.tileMap H G) (f : Nat → List β) {idx : TileIndex}
    (hi : InBox q.tileMap.size idx) :
    (absQ f q).tileMap.get idx = .ok ((q.tileMap.at' idx).map f) := by
  have := TileMap.get_ok (TileMap.wf_mapT (f := f) h.wf) (i := idx) hi
  rw [TileMap.at'_mapT] at this
  exact this

/-- The rest of `operation_queue_add` once the tile fits and its operations are known. -/
def addTail (aq : OpQueue β) (idx : TileIndex) (fifo : List β) (op : β) :
    Except Fault (OpQueue β) := do
  let q ←
    (if fifo = [] then do
      let n ← TileMap.mapSize aq.tileMap.size
      let d ←
        (if ¬ (aq.dirty.length : Int) < n then OpQueue.removeDuplicateTiles aq.dirty
        else pure aq.dirty)
      if ¬ (d.length : Int) < n then throw .assertFail
      if ¬ (d.length : Int) < aq.dirtyCap then throw .outOfBounds
      pure { aq with dirty := d ++ [idx] }
    else pure aq)
  let m ← q.tileMap.put idx (some (fifo ++ [op]))
  pure { q with tileMap := m }

/-- The same with pointers. -/
def addTailP (m : Mem β) (q : Queue) (h : Nat) (idx : TileIndex) (op aItem : Nat) :
    Except Fault (Mem β × Queue) := do
  let hdr ← deref m.fifos h
  let first ← must (Fifo.peekFirst ⟨m.items, hdr⟩)
  let q ← (if first = none then q.mark idx else pure q)
  let s ← must (Fifo.push ⟨m.items, hdr⟩ (some aItem) op)
  pure ({ m with items := s.heap, fifos := upd m.fifos h (some s.q) }, q)

theorem mark_map {q q' : Queue} {idx : TileIndex} (h : q.mark idx = .ok q') :
    q'.tileMap = q.tileMap := by
  simp only [Queue.mark, bind, Except.bind] at h
  cases hn : TileMap.mapSize q.tileMap.size with
  | error e => rw [hn] at h; cases h
  | ok n =>
    rw [hn] at h
    simp only at h
    split at h
    · cases h
    · split at h
      · cases h
      · split at h
        · cases h
        · cases h; rfl

/-- Marking a tile in the two models. -/
theorem mark_absQ (aq : OpQueue β) (q : Queue) (idx : TileIndex)
    (hsz : aq.tileMap.size = q.tileMap.size) (hd : aq.dirty = q.dirty)
    (hc : aq.dirtyCap = q.dirtyCap) :
    (do
      let n ← TileMap.mapSize aq.tileMap.size
      let d ←
        (if ¬ (aq.dirty.length : Int) < n then OpQueue.removeDuplicateTiles aq.dirty
        else pure aq.dirty)
      if ¬ (d.length : Int) < n then throw .assertFail
      if ¬ (d.length : Int) < aq.dirtyCap then throw .outOfBounds
      pure { aq with dirty := d ++ [idx] } : Except Fault (OpQueue β))
      = (q.mark idx).map (fun q' => { aq with dirty := q'.dirty }) := by
  rw [hsz, hd, hc]
  simp only [Queue.mark, bind, Except.bind]
  cases hn : TileMap.mapSize q.tileMap.size with
  | error e => rfl
  | ok n =>
    simp only
    cases hr : (if ¬ (q.dirty.length : Int) < n then OpQueue.removeDuplicateTiles q.dirty
        else (pure q.dirty : Except Fault _)) with
    | error e => rfl
    | ok d =>
      simp only
      by_cases h1 : (d.length : Int) < n
      · simp only [h1, not_true_eq_false, if_false]
        by_cases h2 : (d.length : Int) < q.dirtyCap
        · simp only [h2, not_true_eq_false, if_false]; rfl
        · simp only [h2, not_false_eq_true, if_true]; rfl
      · simp only [h1, not_false_eq_true, if_true]; rfl

theorem mark_cap {q q' : Queue} {idx : TileIndex} (h : q.mark idx = .ok q') :
    q'.dirtyCap = q.dirtyCap := by
  simp only [Queue.mark, bind, Except.bind] at h
  cases hn : TileMap.mapSize q.tileMap.size with
  | error e => rw [hn] at h; cases h
  | ok n =>
    rw [hn] at h
    simp only at h
    split at h
    · cases h
    · split at h
      · cases h
      · split at h
        · cases h
        · cases h; rfl

/-- `aq` is the queue without pointers; it may not know yet of an empty `struct fifo`. -/
theorem addTail_sim {b : Build} {m : Mem β} {q : Queue} {H : List Nat}
    {G : Nat → List (Nat × Nat)} (h : Inv b m q.tileMap H G) {aq : OpQueue β} {idx : TileIndex}
    (hi : InBox q.tileMap.size idx) {a : Nat} (hat : q.tileMap.at' idx = some a)
    (hwf : WF aq.tileMap) (hsz : aq.tileMap.size = q.tileMap.size) (hdq : aq.dirty = q.dirty)
    (hcq : aq.dirtyCap = q.dirtyCap)
    (hoth : ∀ j, InBox q.tileMap.size j → j ≠ idx →
      aq.tileMap.at' j = (q.tileMap.at' j).map (contents m G)) {o : Nat}
    {d : β} (ho : o ∈ H) (hd : m.ops o = some d) {ai : Nat} (hai : m.items ai = none) :
    match addTail aq idx (contents m G a) d with
    | .error e => addTailP m q a idx o ai = .error e
    | .ok aq' => ∃ m' q' G', addTailP m q a idx o ai = .ok (m', q') ∧
        Inv b m' q'.tileMap (H.erase o) G' ∧ aq' = absQ (contents m' G') q' ∧ m'.ops = m.ops ∧
        ∀ x, m'.fifos x ≠ none → G' x ≠ [] ∨ (x ≠ a ∧ m.fifos x ≠ none ∧ G' x = G x) := by
  have ha : m.fifos a ≠ none := h.slotLive idx a hi hat
  obtain ⟨hdr, s, hhdr, hpeek, hpush, hinv, hcon, hcono⟩ := push_step h ha ho hd hai
  have hnil := contents_nil h ha
  set m' : Mem β := { m with items := s.heap, fifos := upd m.fifos a (some s.q) } with hm'
  set G' := Function.update G a (G a ++ [(ai, o)]) with hG'
  have hfull : ∀ x, m'.fifos x ≠ none → G' x ≠ [] ∨ (x ≠ a ∧ m.fifos x ≠ none ∧ G' x = G x) := by
    intro x hx
    by_cases hxa : x = a
    · subst hxa; left; simp [hG']
    · right
      refine ⟨hxa, ?_, by simp [hG', Function.update_of_ne hxa]⟩
      simpa only [hm', upd_ne _ _ hxa] using hx
  -- the part after marking
  have tail : ∀ (aq1 : OpQueue β) (q1 : Queue), q1.tileMap = q.tileMap →
      aq1.tileMap = aq.tileMap → aq1.dirty = q1.dirty → aq1.dirtyCap = q1.dirtyCap →
      ∃ X, aq1.tileMap.put idx (some (contents m G a ++ [d])) = .ok X ∧
        ({ aq1 with tileMap := X } : OpQueue β) = absQ (contents m' G') q1 := by
    intro aq1 q1 hq1 haq1 hd1 hc1
    have hi' : InBox aq.tileMap.size idx := by rw [hsz]; exact hi
    have hput := TileMap.put_ok hwf hi' (some (contents m G a ++ [d]))
    refine ⟨_, by rw [haq1]; exact hput, ?_⟩
    obtain ⟨hw2, hsz2, hat2, hoth2⟩ := TileMap.put_wf hwf hi' hput
    simp only [absQ, hd1, hc1]
    congr 1
    apply TileMap.ext_at hw2
    · exact TileMap.wf_mapT (by rw [hq1]; exact h.wf)
    · rw [hsz2, hsz]; simp [TileMap.mapT, hq1]
    · intro j hj
      rw [hsz2] at hj
      rw [TileMap.at'_mapT, hq1]
      by_cases hji : j = idx
      · subst hji
        rw [hat2, hat, Option.map_some, hcon]
      · have hj' : InBox q.tileMap.size j := by rw [← hsz]; exact hj
        rw [hoth2 j hj hji, hoth j hj' hji]
        cases hx : q.tileMap.at' j with
        | none => rfl
        | some x =>
          have hxa : x ≠ a := by
            rintro rfl
            exact hji (h.slotInj j idx x hj' hi hx hat)
          rw [Option.map_some, Option.map_some, hcono x hxa]
  unfold addTail addTailP
  rw [mark_absQ aq q idx hsz hdq hcq]
  simp only [deref, hhdr, hpeek, must, bind, Except.bind]
  by_cases hg : G a = []
  · have hc : contents m G a = [] := hnil.mpr hg
    simp only [hg, List.map_nil, List.head?_nil, if_true, hc]
    cases hmk : q.mark idx with
    | error e => simp only [Except.map]
    | ok q1 =>
      simp only [Except.map, hpush]
      obtain ⟨X, hX, hXe⟩ := tail { aq with dirty := q1.dirty } q1 (mark_map hmk) rfl rfl
        (by rw [mark_cap hmk]; exact hcq)
      rw [hc] at hX
      simp only [hX]
      exact ⟨_, _, G', rfl, by rw [mark_map hmk]; exact hinv, hXe, rfl, hfull⟩
  · have hc : contents m G a ≠ [] := fun hc => hg (hnil.mp hc)
    have hhead : ((G a).map Prod.snd).head? ≠ none := by
      cases hgg : G a with
      | nil => exact absurd hgg hg
      | cons => simp
    simp only [hc, if_false, hhead, pure, Except.pure, hpush]
    obtain ⟨X, hX, hXe⟩ := tail aq q rfl rfl hdq hcq
    simp only [hX]
    exact ⟨_, _, G', rfl, hinv, hXe, rfl, hfull⟩

theorem add_sim {b : Build} {m : Mem β} {q : Queue} {H : List Nat}
    {G : Nat → List (Nat × Nat)} (h : Inv b m q.tileMap H G) (idx : TileIndex) {o : Nat}
    {d : β} (ho : o ∈ H) (hd : m.ops o = some d) {af ai : Nat} (haf : m.fifos af = none)
    (hai : m.items ai = none) :
    match OpQueue.add b (absQ (contents m G) q) idx d with
    | .error e => add b m q idx o af ai = .error e
    | .ok aq' => ∃ m' q' G', add b m q idx o af ai = .ok (m', q') ∧
        Inv b m' q'.tileMap (H.erase o) G' ∧ aq' = absQ (contents m' G') q' ∧ m'.ops = m.ops ∧
        ∀ x, m'.fifos x ≠ none → G' x ≠ [] ∨ (m.fifos x ≠ none ∧ G' x = G x) := by
  unfold OpQueue.add add
  rw [absQ_growLoop]
  cases hg : q.growLoop b idx OpQueue.growFuel with
  | error e => rfl
  | ok q1 =>
    obtain ⟨h1, hi, _⟩ := inv_grow h hg
    show match ((absQ (contents m G) q1).tileMap.get idx >>= fun slot =>
        addTail (absQ (contents m G) q1) idx (slot.getD []) d) with
      | .error e => (fifoOf m q1 idx af >>= fun r => addTailP r.1 r.2.1 r.2.2 idx o ai) = .error e
      | .ok aq' => ∃ m' q' G', (fifoOf m q1 idx af >>= fun r => addTailP r.1 r.2.1 r.2.2 idx o ai)
          = .ok (m', q') ∧ Inv b m' q'.tileMap (H.erase o) G' ∧ aq' = absQ (contents m' G') q' ∧
          m'.ops = m.ops ∧ ∀ x, m'.fifos x ≠ none → G' x ≠ [] ∨ (m.fifos x ≠ none ∧ G' x = G x)
    rw [get_absQ h1 _ hi]
    cases hat : q1.tileMap.at' idx with
    | some a =>
      have hf : fifoOf m q1 idx af = .ok (m, q1, a) := by
        simp only [fifoOf, TileMap.get_ok h1.wf hi, hat, bind, Except.bind]; rfl
      rw [hf]
      show match addTail (absQ (contents m G) q1) idx (contents m G a) d with
        | .error e => addTailP m q1 a idx o ai = .error e
        | .ok aq' => ∃ m' q' G', addTailP m q1 a idx o ai = .ok (m', q') ∧
          Inv b m' q'.tileMap (H.erase o) G' ∧ aq' = absQ (contents m' G') q' ∧ m'.ops = m.ops ∧
          ∀ x, m'.fifos x ≠ none → G' x ≠ [] ∨ (m.fifos x ≠ none ∧ G' x = G x)
      have key := addTail_sim (aq := absQ (contents m G) q1) h1 hi hat (TileMap.wf_mapT h1.wf) rfl rfl rfl
        (fun j _ _ => TileMap.at'_mapT _ _ _) ho hd hai
      cases hres : addTail (absQ (contents m G) q1) idx (contents m G a) d with
      | error e => rw [hres] at key; exact key
      | ok aq' =>
        rw [hres] at key
        obtain ⟨m', q', G', k1, k2, k3, k4, k5⟩ := key
        exact ⟨m', q', G', k1, k2, k3, k4, fun x hx => (k5 x hx).imp_right fun h => h.2⟩
    | none =>
      have hput := TileMap.put_ok h1.wf hi (some af)
      obtain ⟨h2, hsz, hat2, hoth⟩ := inv_newFifo h1 hi hat haf hput
      have hf : fifoOf m q1 idx af = .ok ({ m with fifos := upd m.fifos af (some Fifo.new) },
          { q1 with tileMap := { q1.tileMap with map := q1.tileMap.map.set (TileMap.off q1.tileMap.size idx).toNat (some af) } }, af) := by
        simp only [fifoOf, TileMap.get_ok h1.wf hi, hat, hput, bind, Except.bind]; rfl
      rw [hf]
      set m2 : Mem β := { m with fifos := upd m.fifos af (some Fifo.new) } with hm2
      set q2 : Queue := { q1 with tileMap := { q1.tileMap with map := q1.tileMap.map.set (TileMap.off q1.tileMap.size idx).toNat (some af) } } with hq2
      set G2 := Function.update G af [] with hG2
      have hcon : contents m2 G2 af = [] := by simp [contents, hG2]
      have key := addTail_sim (aq := absQ (contents m G) q1) (q := q2) h2
        (idx := idx) (by rw [hsz]; exact hi) hat2
        (TileMap.wf_mapT h1.wf) hsz.symm rfl rfl (by
          intro j hj hji
          have hj' : InBox q1.tileMap.size j := by rw [← hsz]; exact hj
          rw [hoth j hj' hji]
          show (TileMap.mapT (contents m G) q1.tileMap).at' j = _
          rw [TileMap.at'_mapT]
          cases hx : q1.tileMap.at' j with
          | none => rfl
          | some x =>
            have hxa : x ≠ af := by
              rintro rfl
              exact h1.slotLive j x hj' hx haf
            simp [contents, hG2, hm2, Function.update_of_ne hxa]) ho (show m2.ops o = some d from hd) hai
      rw [hcon] at key
      simp only [Option.map_none, bind, Except.bind, Option.getD_none]
      cases hres : addTail (absQ (contents m G) q1) idx [] d with
      | error e => rw [hres] at key; exact key
      | ok aq' =>
        rw [hres] at key
        obtain ⟨m', q', G', k1, k2, k3, k4, k5⟩ := key
        refine ⟨m', q', G', k1, k2, k3, k4, fun x hx => ?_⟩
        rcases k5 x hx with hh | ⟨hxa, h3, h4⟩
        · exact Or.inl hh
        · right
          refine ⟨by simpa only [hm2, upd_ne _ _ hxa] using h3, ?_⟩
          rw [h4, hG2, Function.update_of_ne hxa]

/-- No tile but `idx` has an empty `struct fifo`.  (`P` says whether this is claimed at all: it fails
once a tile was not delivered.) -/
def FullBut (P : Prop) (idx : TileIndex) (tm : TileMap Nat) (G : Nat → List (Nat × Nat)) : Prop :=
  P → ∀ i a, InBox tm.size i → tm.at' i = some a → i ≠ idx → G a ≠ []

/-- No tile has an empty `struct fifo`, if `P`. -/
def Full (P : Prop) (tm : TileMap Nat) (G : Nat → List (Nat × Nat)) : Prop :=
  P → ∀ i a, InBox tm.size i → tm.at' i = some a → G a ≠ []

theorem pop_sim {b : Build} {m : Mem β} {q : Queue} {H : List Nat} {G : Nat → List (Nat × Nat)}
    (h : Inv b m q.tileMap H G) (idx : TileIndex) :
    ∃ m' q' G', m'.ops = m.ops ∧ q'.dirty = q.dirty ∧
      (FullBut P idx q.tileMap G → FullBut P idx q'.tileMap G') ∧
      ((pop m q idx = .ok (none, m', q') ∧ Inv b m' q'.tileMap H G' ∧
          (InBox q'.tileMap.size idx → q'.tileMap.at' idx = none) ∧
          OpQueue.pop (absQ (contents m G) q) idx = .ok (none, absQ (contents m' G') q')) ∨
        ∃ o d, pop m q idx = .ok (some o, m', q') ∧ Inv b m' q'.tileMap (o :: H) G' ∧
          m.ops o = some d ∧
          OpQueue.pop (absQ (contents m G) q) idx = .ok (some d, absQ (contents m' G') q')) := by
  by_cases hc : q.tileMap.contains idx = true
  · have hi := (TileMap.contains_iff _ _).mp hc
    have hca : (absQ (contents m G) q).tileMap.contains idx = true := hc
    have hget := get_absQ h (contents m G) hi
    cases hat : q.tileMap.at' idx with
    | none =>
      refine ⟨m, q, G, rfl, rfl, id, Or.inl ⟨?_, h, fun _ => hat, ?_⟩⟩
      · simp only [pop, hc, not_true_eq_false, if_false, TileMap.get_ok h.wf hi, hat, bind,
          Except.bind]; rfl
      · rw [hat] at hget
        simp only [OpQueue.pop, hca, not_true_eq_false, if_false, hget, bind, Except.bind]; rfl
    | some a =>
      have ha : m.fifos a ≠ none := h.slotLive idx a hi hat
      obtain ⟨hdr, hhdr⟩ := Option.ne_none_iff_exists'.mp ha
      have hh := h.holds a hdr hhdr
      rw [hat] at hget
      cases hg : G a with
      | nil =>
        have hfirst : hdr.first = none := by
          have := hh.1
          rw [hg] at this; exact this
        obtain ⟨tm', hput⟩ : ∃ tm', q.tileMap.put idx none = .ok tm' :=
          ⟨_, TileMap.put_ok h.wf hi none⟩
        obtain ⟨h2, hsz, hat2, hoth⟩ := inv_dropFifo h hi hat hg hput
        have huu : upd (upd m.fifos a (some hdr)) a none = upd m.fifos a none := by
          funext x; simp only [upd]; split_ifs <;> rfl
        refine ⟨{ m with fifos := upd m.fifos a none }, { q with tileMap := tm' }, G, rfl, rfl,
          ?_, Or.inl ⟨?_, h2, fun _ => hat2, ?_⟩⟩
        · intro hf hP i x hib hix hii
          simp only [hsz] at hib
          exact hf hP i x hib (by rw [← hoth i hib hii]; exact hix) hii
        · simp only [pop, hc, not_true_eq_false, if_false, TileMap.get_ok h.wf hi, hat, bind,
            Except.bind, deref, hhdr, Fifo.pop, hfirst, must, fifoFree, upd_self, Fifo.freeLoop,
            hput, huu, pure, Except.pure]
        · have hcn : contents m G a = [] := by simp [contents, hg]
          simp only [OpQueue.pop, hca, not_true_eq_false, if_false, hget, Option.map_some, hcn, bind,
            Except.bind]
          have hp := TileMap.mapT_put (contents m G) q.tileMap idx none
          rw [hput] at hp
          simp only [Option.map_none, Except.map] at hp
          have hp' : (absQ (contents m G) q).tileMap.put idx none
            = .ok (TileMap.mapT (contents m G) tm') := hp
          simp only [hp']
          rfl
      | cons p xs =>
        obtain ⟨ai, o⟩ := p
        rw [hg] at hh
        obtain ⟨s, hpop, hs, hframe, hfreed⟩ := Fifo.pop_holds hh
        have hpop' : Fifo.pop ⟨m.items, hdr⟩ = some (some o, s) := by
          rw [hpop]; simp
        have hnd := h.opNodup a ha
        have hndi := hh.2.1
        rw [hg] at hnd
        simp only [List.map_cons, List.nodup_cons] at hnd hndi
        have hoH : o ∉ H := fun ho => h.opHeld o a ho ha (by rw [hg]; simp)
        obtain ⟨d, hd⟩ := Option.ne_none_iff_exists'.mp
          ((h.opLive o).mpr (Or.inr ⟨a, ha, by rw [hg]; simp⟩))
        have h2 : Inv b { m with items := s.heap, fifos := upd m.fifos a (some s.q) } q.tileMap
            (o :: H) (Function.update G a xs) := by
          refine inv_change h ha hs ?_ ?_ ?_ hnd.2 (List.nodup_cons.mpr ⟨hoH, h.held⟩) ?_ ?_
          · intro i _ hi'
            rw [hg] at hi'; exact hframe i hi'
          · intro i hi' hix
            rw [hg] at hi'
            simp only [List.map_cons, List.mem_cons] at hi'
            rcases hi' with rfl | hi'
            · exact hfreed i (by simp)
            · exact absurd hi' hix
          · intro i hi'
            rw [hg]
            left; simp only [List.map_cons, List.mem_cons]; exact Or.inr hi'
          · intro x
            rw [hg]
            simp only [List.map_cons, List.mem_cons]
            tauto
          · intro x hx hxs
            rcases List.mem_cons.mp hx with rfl | hx
            · exact hnd.1 hxs
            · exact h.opHeld x a hx ha (by
                rw [hg]; simp only [List.map_cons, List.mem_cons]; exact Or.inr hxs)
        set m' : Mem β := { m with items := s.heap, fifos := upd m.fifos a (some s.q) } with hm'
        set G' := Function.update G a xs with hG'
        refine ⟨m', q, G', rfl, rfl, ?_, Or.inr ⟨o, d, ?_, h2, hd, ?_⟩⟩
        · intro hf hP i x hib hix hii
          have hxa : x ≠ a := by
            rintro rfl
            exact hii (h.slotInj i idx x hib hi hix hat)
          rw [hG', Function.update_of_ne hxa]
          exact hf hP i x hib hix hii
        · simp only [pop, hc, not_true_eq_false, if_false, TileMap.get_ok h.wf hi, hat, bind,
            Except.bind, deref, hhdr, hpop', must, pure, Except.pure, hm']
        · have hcn : contents m G a = d :: contents m' G' a := by
            simp [contents, hg, hd, hG', hm']
          have hi' : InBox (TileMap.mapT (contents m G) q.tileMap).size idx := hi
          have hput := TileMap.put_ok (TileMap.wf_mapT (f := contents m G) h.wf) hi'
            (some (contents m' G' a))
          obtain ⟨hw2, hsz2, hat2, hoth2⟩ := TileMap.put_wf
            (TileMap.wf_mapT (f := contents m G) h.wf) hi' hput
          simp only [OpQueue.pop, hca, not_true_eq_false, if_false, hget, Option.map_some, hcn, bind,
            Except.bind]
          obtain ⟨tm', htm⟩ : ∃ tm', tm' = ({ TileMap.mapT (contents m G) q.tileMap with
              map := (TileMap.mapT (contents m G) q.tileMap).map.set
                (TileMap.off (TileMap.mapT (contents m G) q.tileMap).size idx).toNat
                (some (contents m' G' a)) } : TileMap (List β)) := ⟨_, rfl⟩
          rw [← htm] at hput hw2 hsz2 hat2 hoth2
          have hput' : (absQ (contents m G) q).tileMap.put idx (some (contents m' G' a))
            = .ok tm' := hput
          simp only [hput', pure, Except.pure]
          congr 2
          simp only [absQ]
          congr 1
          apply TileMap.ext_at hw2 (TileMap.wf_mapT h.wf)
          · rw [hsz2]; rfl
          · intro j hj
            rw [hsz2] at hj
            have hj' : InBox q.tileMap.size j := hj
            rw [TileMap.at'_mapT]
            by_cases hji : j = idx
            · subst hji
              rw [hat2, hat, Option.map_some]
            · rw [hoth2 j hj hji, TileMap.at'_mapT]
              cases hx : q.tileMap.at' j with
              | none => rfl
              | some x =>
                have hxa : x ≠ a := by
                  rintro rfl
                  exact hji (h.slotInj j idx x hj' hi hx hat)
                simp [contents, hG', hm', Function.update_of_ne hxa]
  · refine ⟨m, q, G, rfl, rfl, id, Or.inl ⟨?_, h, fun hi => absurd ((TileMap.contains_iff _ _).mpr hi) hc, ?_⟩⟩
    · rw [pop, if_pos hc]
    · have hca : ¬ (absQ (contents m G) q).tileMap.contains idx = true := hc
      rw [OpQueue.pop, if_pos hca]

/-! ### The surface -/

theorem absQ_congr {q : Queue} (hw : WF q.tileMap) {f g : Nat → List β}
    (h : ∀ i a, InBox q.tileMap.size i → q.tileMap.at' i = some a → f a = g a) :
    absQ f q = absQ g q := by
  simp only [absQ]
  congr 1
  refine TileMap.ext_at (TileMap.wf_mapT hw) (TileMap.wf_mapT hw)
    (show (TileMap.mapT f q.tileMap).size = (TileMap.mapT g q.tileMap).size from rfl) ?_
  intro i hi
  rw [TileMap.at'_mapT, TileMap.at'_mapT]
  cases hx : q.tileMap.at' i with
  | none => rfl
  | some a => rw [Option.map_some, Option.map_some, h i a hi hx]

/-- Operations in other hands do not count. -/
theorem absQ_ops {b : Build} {m : Mem β} {q : Queue} {H : List Nat} {G : Nat → List (Nat × Nat)}
    (h : Inv b m q.tileMap H G) {o : Nat} (v : Option β)
    (ho : ∀ a, m.fifos a ≠ none → o ∉ (G a).map Prod.snd) :
    absQ (contents { m with ops := upd m.ops o v } G) q = absQ (contents m G) q := by
  apply absQ_congr h.wf
  intro i a hi ha
  have hno := ho a (h.slotLive i a hi ha)
  simp only [contents]
  apply List.filterMap_congr
  intro p hp
  have hpo : p.2 ≠ o := by
    rintro rfl
    exact hno (List.mem_map.mpr ⟨p, hp, rfl⟩)
  simp only [upd_ne _ _ hpo]

theorem drain_mono (idx : TileIndex) : ∀ (n n' : Nat) (m : Mem β) (q : Queue) (o : Option Nat)
    (r : List β × Mem β × Queue), drain idx n m q o = .ok r → n ≤ n' → drain idx n' m q o = .ok r
  | n, n', m, q, none, r, h, _ => by
    cases n <;> cases n' <;> exact h
  | 0, n', m, q, some o, r, h, _ => by cases h
  | n + 1, 0, m, q, some o, r, h, hn => by omega
  | n + 1, n' + 1, m, q, some o, r, h, hn => by
    simp only [drain] at h ⊢
    cases hd : deref m.ops o with
    | error e => rw [hd] at h; cases h
    | ok d =>
      rw [hd] at h
      simp only [bind, Except.bind] at h ⊢
      cases hf : freeOp m o with
      | error e => rw [hf] at h; cases h
      | ok m1 =>
        rw [hf] at h
        simp only at h ⊢
        cases hp : pop m1 q idx with
        | error e => rw [hp] at h; cases h
        | ok x =>
          rw [hp] at h
          simp only at h ⊢
          cases hr : drain idx n x.2.1 x.2.2 x.1 with
          | error e => rw [hr] at h; cases h
          | ok y =>
            rw [hr] at h
            rw [drain_mono idx n n' _ _ _ y hr (by omega)]
            exact h

theorem full_of_but {idx : TileIndex} {tm : TileMap Nat} {G : Nat → List (Nat × Nat)}
    (h : FullBut P idx tm G) (hi : InBox tm.size idx → tm.at' idx = none) : Full P tm G := by
  intro hP i a hib hia
  by_cases hii : i = idx
  · subst hii; rw [hi hib] at hia; cases hia
  · exact h hP i a hib hia hii

theorem drain_sim {T : Type} {b : Build} (k : DabKind β T) (idx : TileIndex) :
    ∀ (n : Nat) (m : Mem β) (q : Queue) (H : List Nat) (G : Nat → List (Nat × Nat)) (o : Nat) (d : β)
      (buf : T) (aq' : OpQueue β) (buf' : T),
      Inv b m q.tileMap (o :: H) G → FullBut P idx q.tileMap G → m.ops o = some d →
      Surf.drainLoop k idx n (absQ (contents m G) q) buf (some d) = .ok (aq', buf') →
      ∃ ds m' q' G', drain idx n m q (some o) = .ok (ds, m', q') ∧ Inv b m' q'.tileMap H G' ∧
        Full P q'.tileMap G' ∧ aq' = absQ (contents m' G') q' ∧ q'.dirty = q.dirty ∧
        buf' = ds.foldl (fun v d => k.processOp idx d v) buf
  | 0, _, _, _, _, _, _, _, _, _, _, _, _, he => by cases he
  | n + 1, m, q, H, G, o, d, buf, aq', buf', h, hfb, hd, he => by
    have hf : freeOp m o = .ok { m with ops := upd m.ops o none } := by
      simp only [freeOp, deref, hd, bind, Except.bind]; rfl
    have h1 := inv_free h (List.mem_cons_self (a := o) (l := H))
    rw [List.erase_cons_head] at h1
    have hq1 := absQ_ops h (o := o) none (fun a ha => h.opHeld o a (by simp) ha)
    obtain ⟨m2, q2, G2, hops2, hdir2, hfb2, hcase⟩ := pop_sim (q := q) h1 idx
    have hfb2 := hfb2 hfb
    rw [hq1] at hcase
    simp only [Surf.drainLoop] at he
    simp only [drain, deref, hd, bind, Except.bind, hf]
    rcases hcase with ⟨hp, h2, hfree, hap⟩ | ⟨o2, d2, hp, h2, hd2, hap⟩
    · rw [hap] at he
      have hnone : Surf.drainLoop k idx n (absQ (contents m2 G2) q2) (k.processOp idx d buf) none
          = .ok (absQ (contents m2 G2) q2, k.processOp idx d buf) := by
        cases n <;> rfl
      simp only [bind, Except.bind, hnone] at he
      have hd0 : drain idx n m2 q2 none = .ok ([], m2, q2) := by cases n <;> rfl
      simp only [hp, hd0]
      have := Except.ok.inj he
      refine ⟨[d], m2, q2, G2, rfl, h2, full_of_but hfb2 hfree, (congrArg Prod.fst this).symm, hdir2,
        (congrArg Prod.snd this).symm⟩
    · rw [hap] at he
      simp only [bind, Except.bind] at he
      obtain ⟨ds, m3, q3, G3, hr, h3, hf3, ha3, hdir3, hb3⟩ := drain_sim k idx n m2 q2 H G2 o2 d2
        (k.processOp idx d buf) aq' buf' h2 hfb2 (by rw [hops2]; exact hd2) he
      simp only [hp, hr]
      exact ⟨d :: ds, m3, q3, G3, rfl, h3, hf3, ha3, hdir3.trans hdir2, by rw [hb3, List.foldl_cons]⟩

/-- The surface `S` of the model without pointers and the state `s` agree. -/
structure Rep {T : Type} (P : Prop) (b : Build) (s : State β) (H : List Nat) (G : Nat → List (Nat × Nat))
    (S : Surf β T) : Prop where
  inv : Inv b s.mem s.q.tileMap H G
  full : Full P s.q.tileMap G
  queue : S.queue = absQ (contents s.mem G) s.q

theorem setTile_same {T : Type} (c : TileIndex → T) (t : TileIndex) :
    Surf.setTile c t (c t) = c := by
  funext u
  simp only [Surf.setTile]
  split
  · next h => rw [h]
  · rfl

theorem processTile_sim {T : Type} {b : Build} (k : DabKind β T) {s : State β} {H : List Nat}
    {G : Nat → List (Nat × Nat)} {S S' : Surf β T} (h : Rep P b s H G S) (t : TileIndex)
    (he : Surf.processTile k true S t = .ok S') :
    ∃ N ds s' G', (∀ fuel ≥ N, processTile fuel true s t = .ok (ds, s')) ∧ Rep P b s' H G' S' ∧
      s'.q.dirty = s.q.dirty ∧ S'.canvas = applied k S.canvas [(t, ds)] := by
  obtain ⟨m2, q2, G2, hops2, hdir2, hfb2, hcase⟩ := pop_sim (q := s.q) h.inv t
  have hfb2 := hfb2 (fun hP i a hi ha _ => h.full hP i a hi ha)
  rw [← h.queue] at hcase
  simp only [Surf.processTile, bind, Except.bind] at he
  rcases hcase with ⟨hp, h2, hfree, hap⟩ | ⟨o, d, hp, h2, hd, hap⟩
  · rw [hap] at he
    have := Except.ok.inj he
    subst this
    refine ⟨0, [], { s with mem := m2, q := q2 }, G2, ?_, ⟨h2, full_of_but hfb2 hfree, rfl⟩, hdir2, ?_⟩
    · intro fuel _
      simp only [processTile, hp, bind, Except.bind]; rfl
    · simp only [applied, List.foldl_cons, List.foldl_nil, setTile_same]
  · rw [hap] at he
    simp only [not_true_eq_false, if_false] at he
    cases hdr : Surf.drainLoop k t (Surf.waiting S.queue t) (absQ (contents m2 G2) q2) (S.canvas t)
        (some d) with
    | error e => rw [hdr] at he; cases he
    | ok x =>
      rw [hdr] at he
      have := Except.ok.inj he
      subst this
      obtain ⟨ds, m3, q3, G3, hr, h3, hf3, ha3, hdir3, hb3⟩ := drain_sim k t _ m2 q2 H G2 o d _ x.1 x.2 h2
        hfb2 (by rw [hops2]; exact hd) hdr
      refine ⟨Surf.waiting S.queue t, ds, { s with mem := m3, q := q3 }, G3, ?_, ⟨h3, hf3, ha3⟩,
        hdir3.trans hdir2, ?_⟩
      · intro fuel hf
        simp only [processTile, hp, bind, Except.bind, not_true_eq_false, if_false,
          drain_mono t _ _ _ _ _ _ hr hf]
        rfl
      · simp only [applied, List.foldl_cons, List.foldl_nil, hb3]

theorem applied_append {T : Type} (k : DabKind β T) (c : TileIndex → T)
    (r r' : List (TileIndex × List β)) :
    applied k c (r ++ r') = applied k (applied k c r) r' := by
  simp only [applied, List.foldl_append]

theorem processAll_sim {T : Type} {b : Build} (k : DabKind β T) :
    ∀ (ts : List TileIndex) (s : State β) (H : List Nat) (G : Nat → List (Nat × Nat))
      (S S' : Surf β T), Rep P b s H G S →
      ts.foldlM (fun S t => Surf.processTile k true S t) S = .ok S' →
      ∃ N r s' G', (∀ fuel ≥ N, processAll fuel (fun _ => true) s ts = .ok (r, s')) ∧
        Rep P b s' H G' S' ∧ S'.canvas = applied k S.canvas r
  | [], s, H, G, S, S', h, he => by
    cases he
    exact ⟨0, [], s, G, fun _ _ => rfl, h, rfl⟩
  | t :: ts, s, H, G, S, S', h, he => by
    rw [List.foldlM_cons] at he
    cases h1 : Surf.processTile k true S t with
    | error e => rw [h1] at he; cases he
    | ok S1 =>
      rw [h1] at he
      obtain ⟨N1, ds, s1, G1, hr1, hrep1, _, hc1⟩ := processTile_sim k h t h1
      obtain ⟨N2, r, s2, G2, hr2, hrep2, hc2⟩ := processAll_sim k ts s1 H G1 S1 S' hrep1 he
      refine ⟨max N1 N2, (t, ds) :: r, s2, G2, ?_, hrep2, ?_⟩
      · intro fuel hf
        simp only [processAll, hr1 fuel (le_trans (le_max_left _ _) hf), bind, Except.bind,
          hr2 fuel (le_trans (le_max_right _ _) hf)]
        rfl
      · rw [hc2, hc1, ← applied_append]; rfl

theorem sample_fold {T : Type} (k : DabKind β T) : ∀ (ts : List TileIndex) (S S' : Surf β T)
    (vs : List T), Surf.sample k S ts = .ok (vs, S') →
    ts.foldlM (fun S t => Surf.processTile k true S t) S = .ok S'
  | [], S, S', vs, h => by
    have hS : S = S' := congrArg Prod.snd (Except.ok.inj h)
    rw [← hS]; rfl
  | t :: ts, S, S', vs, h => by
    simp only [Surf.sample, bind, Except.bind] at h
    rw [List.foldlM_cons]
    cases h1 : Surf.processTile k true S t with
    | error e => rw [h1] at h; cases h
    | ok S1 =>
      rw [h1] at h
      simp only at h
      cases h2 : Surf.sample k S1 ts with
      | error e => rw [h2] at h; cases h
      | ok x =>
        rw [h2] at h
        have := Except.ok.inj h
        have hS : x.2 = S' := congrArg Prod.snd this
        exact sample_fold k ts S1 S' x.1 (by rw [h2, ← hS])

theorem queueDab_sim {b : Build} {al : Alloc β} (hal : AllocOk al) {s : State β}
    {H : List Nat} {G : Nat → List (Nat × Nat)} (h : Inv b s.mem s.q.tileMap H G)
    (hfl : Full P s.q.tileMap G) (t : TileIndex)
    (d : β) {aq : OpQueue β}
    (he : OpQueue.add b (absQ (contents s.mem G) s.q) t d = .ok aq) :
    ∃ s' G', queueDab al b s t d = .ok s' ∧ Inv b s'.mem s'.q.tileMap H G' ∧
      Full P s'.q.tileMap G' ∧ aq = absQ (contents s'.mem G') s'.q := by
  obtain ⟨ho, hf, hi⟩ := hal s.clock s.mem h.bounded
  have h1 := inv_alloc h (o := (al s.clock s.mem).op) d ho
  have hq := absQ_ops h (o := (al s.clock s.mem).op) (some d) (fun a ha hc =>
    (h.opLive _).mpr (Or.inr ⟨a, ha, hc⟩) ho)
  have := add_sim (q := s.q) h1 t (o := (al s.clock s.mem).op) (d := d) (by simp)
    (by simp [upd_self]) (af := (al s.clock s.mem).fifo) hf (ai := (al s.clock s.mem).item) hi
  rw [hq, he] at this
  obtain ⟨m', q', G', hadd, hinv, haq, _, hfull⟩ := this
  rw [List.erase_cons_head] at hinv
  refine ⟨⟨m', q', s.clock + 1⟩, G', ?_, hinv, ?_, haq⟩
  swap
  · intro hP i a hi ha
    rcases hfull a (hinv.slotLive i a hi ha) with hh | ⟨hl, hg⟩
    · exact hh
    · obtain ⟨j, hj, hja⟩ := h.fifoUsed a hl
      rw [hg]; exact hfl hP j a hj hja
  simp only [queueDab, hadd, bind, Except.bind]
  rfl

theorem dab_sim {b : Build} {al : Alloc β} (hal : AllocOk al) (d : β) :
    ∀ (ts : List TileIndex) (s : State β) (H : List Nat) (G : Nat → List (Nat × Nat))
      (aq : OpQueue β), Inv b s.mem s.q.tileMap H G → Full P s.q.tileMap G →
      ts.foldlM (fun q t => OpQueue.add b q t d) (absQ (contents s.mem G) s.q) = .ok aq →
      ∃ s' G', ts.foldlM (fun s t => queueDab al b s t d) s = .ok s' ∧
        Inv b s'.mem s'.q.tileMap H G' ∧ Full P s'.q.tileMap G' ∧ aq = absQ (contents s'.mem G') s'.q
  | [], s, H, G, aq, h, hf, he => ⟨s, G, rfl, h, hf, (Except.ok.inj he).symm⟩
  | t :: ts, s, H, G, aq, h, hf, he => by
    rw [List.foldlM_cons] at he
    cases h1 : OpQueue.add b (absQ (contents s.mem G) s.q) t d with
    | error e => rw [h1] at he; cases he
    | ok aq1 =>
      rw [h1] at he
      obtain ⟨s1, G1, hq1, hi1, hf1, ha1⟩ := queueDab_sim hal h hf t d h1
      subst ha1
      obtain ⟨s2, G2, hq2, hi2, hf2, ha2⟩ := dab_sim hal d ts s1 H G1 aq hi1 hf1 he
      refine ⟨s2, G2, ?_, hi2, hf2, ha2⟩
      rw [List.foldlM_cons, hq1]; exact hq2

theorem step_sim {T : Type} {b : Build} {al : Alloc β} (hal : AllocOk al) (k : DabKind β T)
    {s : State β} {H : List Nat} {G : Nat → List (Nat × Nat)} {S S' : Surf β T} {o : List T}
    (h : Rep P b s H G S) (e : Surf.Event β) (he : Surf.step b k S e = .ok (o, S')) :
    ∃ N r s' G', (∀ fuel ≥ N, step al b k.tilesOf fuel s e = .ok (r, s')) ∧ Rep P b s' H G' S' ∧
      S'.canvas = applied k S.canvas r := by
  cases e with
  | dab d =>
    simp only [Surf.step, Surf.drawDab, bind, Except.bind] at he
    rw [h.queue] at he
    cases h1 : (k.tilesOf d).foldlM (fun q t => OpQueue.add b q t d)
        (absQ (contents s.mem G) s.q) with
    | error e => rw [h1] at he; cases he
    | ok aq =>
      rw [h1] at he
      have := congrArg Prod.snd (Except.ok.inj he)
      simp only at this
      subst this
      obtain ⟨s', G', hs, hi, hf, ha⟩ := dab_sim hal d _ s H G aq h.inv h.full h1
      refine ⟨0, [], s', G', ?_, ⟨hi, hf, ha⟩, rfl⟩
      intro fuel _
      simp only [step, hs, bind, Except.bind]; rfl
  | sample ts =>
    exact processAll_sim k ts s H G S S' h (sample_fold k ts S S' o he)
  | endAtomic order =>
    simp only [Surf.step, Surf.endAtomic, OpQueue.getDirtyTiles, bind, Except.bind] at he
    rw [show S.queue.dirty = s.q.dirty by rw [h.queue]; rfl] at he
    cases hd : OpQueue.removeDuplicateTiles s.q.dirty with
    | error e => rw [hd] at he; cases he
    | ok d =>
      rw [hd] at he
      simp only [pure, Except.pure] at he
      cases h1 : (order d).foldlM (fun S t => Surf.processTile k true S t)
          { S with queue := { S.queue with dirty := d } } with
      | error e => rw [h1] at he; cases he
      | ok S1 =>
        rw [h1] at he
        have := congrArg Prod.snd (Except.ok.inj he)
        simp only at this
        subst this
        obtain ⟨N, r, s1, G1, hr, hrep, hc⟩ := processAll_sim k (order d)
          { s with q := { s.q with dirty := d } } H G
          { S with queue := { S.queue with dirty := d } } S1
          ⟨h.inv, h.full, by simp only [h.queue]; rfl⟩ h1
        refine ⟨N, r, { s1 with q := { s1.q with dirty := [] } }, G1, ?_, ⟨hrep.inv, hrep.full, ?_⟩, hc⟩
        · intro fuel hf
          simp only [step, endAtomic, hd, bind, Except.bind, hr fuel hf]; rfl
        · simp only [OpQueue.clearDirtyTiles, hrep.queue]; rfl

theorem run_sim {T : Type} {b : Build} {al : Alloc β} (hal : AllocOk al) (k : DabKind β T) :
    ∀ (es : List (Surf.Event β)) (s : State β) (H : List Nat) (G : Nat → List (Nat × Nat))
      (S S' : Surf β T) (os : List (List T)), Rep P b s H G S →
      Surf.run b k S es = .ok (os, S') →
      ∃ N r s' G', (∀ fuel ≥ N, run al b k.tilesOf fuel s es = .ok (r, s')) ∧ Rep P b s' H G' S' ∧
        S'.canvas = applied k S.canvas r
  | [], s, H, G, S, S', os, h, he => by
    have := congrArg Prod.snd (Except.ok.inj he)
    simp only at this
    subst this
    exact ⟨0, [], s, G, fun _ _ => rfl, h, rfl⟩
  | e :: es, s, H, G, S, S', os, h, he => by
    simp only [Surf.run, bind, Except.bind] at he
    cases h1 : Surf.step b k S e with
    | error e => rw [h1] at he; cases he
    | ok x =>
      rw [h1] at he
      simp only at he
      cases h2 : Surf.run b k x.2 es with
      | error e => rw [h2] at he; cases he
      | ok y =>
        rw [h2] at he
        have := congrArg Prod.snd (Except.ok.inj he)
        simp only at this
        subst this
        obtain ⟨N1, r1, s1, G1, hr1, hrep1, hc1⟩ := step_sim hal k h e (o := x.1) (S' := x.2) h1
        obtain ⟨N2, r2, s2, G2, hr2, hrep2, hc2⟩ := run_sim hal k es s1 H G1 x.2 y.2 y.1 hrep1 h2
        refine ⟨max N1 N2, r1 ++ r2, s2, G2, ?_, hrep2, ?_⟩
        · intro fuel hf
          simp only [run, hr1 fuel (le_trans (le_max_left _ _) hf), bind, Except.bind,
            hr2 fuel (le_trans (le_max_right _ _) hf)]
          rfl
        · rw [hc2, hc1, ← applied_append]

theorem init_sim {T : Type} (b : Build) (c : TileIndex → T) :
    ∃ s : State β, init b = .ok s ∧ ∃ S, Surf.init b c = .ok S ∧ S.canvas = c ∧
      Rep P b s [] (fun _ => []) S := by
  have hv := sizeOk_valid (sizeOk_init b)
  obtain ⟨m, hm, hwf, hsz, hat⟩ := TileMap.new_ok (α := Nat) hv
  have hm' : (TileMap.new b.initSize : Except Fault (TileMap (List β)))
      = .ok (TileMap.mapT (contents Mem.empty fun _ => []) m) := by
    rw [TileMap.mapT_new (contents (Mem.empty : Mem β) fun _ => []), hm]; rfl
  refine ⟨⟨Mem.empty, ⟨m, [], 4 * b.initSize * b.initSize⟩, 0⟩, ?_,
    ⟨absQ (contents Mem.empty fun _ => []) ⟨m, [], 4 * b.initSize * b.initSize⟩, c⟩, ?_, rfl, ?_⟩
  · simp only [init, Queue.new, hm, TileMap.mapSize_ok hv, bind, Except.bind]; rfl
  · simp only [Surf.init, OpQueue.new, hm', TileMap.mapSize_ok hv, bind, Except.bind]; rfl
  · refine ⟨⟨by simp only [hsz]; exact sizeOk_init b, hwf, ?_, ?_, ?_, ?_, ?_, ?_, ?_, ?_, ?_, ?_,
      by simp, ⟨0, fun a _ => ⟨rfl, rfl, rfl⟩⟩⟩, ?_, rfl⟩
    · intro i a _ h; rw [hat] at h; cases h
    · intro i j a _ _ h; rw [hat] at h; cases h
    · intro a h; exact absurd rfl h
    · intro a hdr h; cases h
    · intro a a' x h; exact absurd rfl h
    · intro a h; exact absurd rfl h
    · intro a a' x h; exact absurd rfl h
    · intro a h; exact absurd rfl h
    · intro o; simp [Mem.empty]
    · intro o a h; simp at h
    · intro _ i a _ h; rw [hat] at h; cases h

/-! ### Destroying the queue -/

theorem destroy_list (fuel : Nat) (G : Nat → List (Nat × Nat)) :
    ∀ (l : List (Option Nat)) (m : Mem β),
      (∀ (p p' : Nat) (a : Nat), l[p]? = some (some a) → l[p']? = some (some a) → p = p') →
      (∀ a, m.fifos a ≠ none ↔ some a ∈ l) →
      (∀ h hdr, m.fifos h = some hdr → Fifo.Holds ⟨m.items, hdr⟩ (G h)) →
      (∀ h h' a, m.fifos h ≠ none → m.fifos h' ≠ none → a ∈ (G h).map Prod.fst →
        a ∈ (G h').map Prod.fst → h = h') →
      (∀ a, m.items a ≠ none → ∃ h, m.fifos h ≠ none ∧ a ∈ (G h).map Prod.fst) →
      (∀ h, m.fifos h ≠ none → (G h).length ≤ fuel) →
      ∃ m', l.foldlM (freeSlot fuel) m = .ok m' ∧
        (∀ a, m'.fifos a = none) ∧ (∀ a, m'.items a = none) ∧ m'.ops = m.ops
  | [], m, _, hl, _, _, hu, _ => by
    have hf : ∀ a, m.fifos a = none := fun a => by
      by_contra hc
      exact absurd ((hl a).mp hc) (by simp)
    refine ⟨m, rfl, hf, fun a => ?_, rfl⟩
    by_contra hc
    obtain ⟨x, hx, _⟩ := hu a hc
    exact hx (hf x)
  | none :: l, m, hn, hl, hh, ho, hu, hfu => by
    rw [List.foldlM_cons]
    have hn' : ∀ (p p' : Nat) (a : Nat), l[p]? = some (some a) → l[p']? = some (some a) → p = p' := by
      intro p p' a h1 h2
      have := hn (p + 1) (p' + 1) a (by simpa using h1) (by simpa using h2)
      omega
    exact destroy_list fuel G l m hn' (fun a => by rw [hl a]; simp) hh ho hu hfu
  | some a :: l, m, hn, hl, hh, ho, hu, hfu => by
    rw [List.foldlM_cons]
    have hn' : ∀ (p p' : Nat) (a : Nat), l[p]? = some (some a) → l[p']? = some (some a) → p = p' := by
      intro p p' a h1 h2
      have := hn (p + 1) (p' + 1) a (by simpa using h1) (by simpa using h2)
      omega
    have hna : some a ∉ l := by
      intro hm
      obtain ⟨p, hp⟩ := List.getElem?_of_mem hm
      have := hn 0 (p + 1) a (by simp) (by simpa using hp)
      omega
    have ha : m.fifos a ≠ none := (hl a).mpr (by simp)
    obtain ⟨hdr, hhdr⟩ := Option.ne_none_iff_exists'.mp ha
    have hha := hh a hdr hhdr
    obtain ⟨it, hit, hgone, hkeep⟩ := Fifo.freeLoop_chain (G a) m.items hdr.first fuel hha.1 hha.2.1
      (hfu a ha)
    have hstep : fifoFree fuel m a = .ok { m with items := it, fifos := upd m.fifos a none } := by
      simp only [fifoFree, deref, hhdr, hit, must, bind, Except.bind]; rfl
    have hlive : ∀ x, upd m.fifos a none x ≠ none ↔ x ≠ a ∧ m.fifos x ≠ none := by
      intro x
      by_cases hxa : x = a
      · subst hxa; simp [upd_self]
      · simp [upd_ne _ _ hxa, hxa]
    show ∃ m', (fifoFree fuel m a >>= fun m => l.foldlM (freeSlot fuel) m) = .ok m' ∧ _
    rw [hstep]
    refine destroy_list fuel G l { m with items := it, fifos := upd m.fifos a none } hn' ?_ ?_ ?_ ?_ ?_
    · intro x
      rw [hlive, hl x, List.mem_cons]
      constructor
      · rintro ⟨h1, h2 | h2⟩
        · exact absurd (Option.some.inj h2) h1
        · exact h2
      · intro h2
        exact ⟨by rintro rfl; exact hna h2, Or.inr h2⟩
    · intro x hdr' hx
      have hxa : x ≠ a := by rintro rfl; simp [upd_self] at hx
      simp only [upd_ne _ _ hxa] at hx
      obtain ⟨h1, h2, h3⟩ := hh x hdr' hx
      refine ⟨Fifo.chain_congr (fun i hi => ?_) h1, h2, h3⟩
      exact (hkeep i (fun hc => hxa (ho x a i (by rw [hx]; simp) ha hi hc))).symm
    · intro x y i hx hy
      exact ho x y i ((hlive x).mp hx).2 ((hlive y).mp hy).2
    · intro i hi
      have hig : i ∉ (G a).map Prod.fst := fun hc => hi (hgone i hc)
      obtain ⟨x, hx, hxi⟩ := hu i (by rw [← hkeep i hig]; exact hi)
      have hxa : x ≠ a := by rintro rfl; exact hig hxi
      exact ⟨x, (hlive x).mpr ⟨hxa, hx⟩, hxi⟩
    · intro x hx
      exact hfu x ((hlive x).mp hx).2

theorem destroy_inv {b : Build} {m : Mem β} {q : Queue} {H : List Nat} {G : Nat → List (Nat × Nat)}
    (h : Inv b m q.tileMap H G) :
    ∃ N m', (∀ fuel ≥ N, destroy fuel m q = .ok m') ∧ (∀ a, m'.fifos a = none) ∧
      (∀ a, m'.items a = none) ∧ m'.ops = m.ops := by
  have hslot : ∀ (p a : Nat), q.tileMap.map[p]? = some (some a) →
      ∃ i, InBox q.tileMap.size i ∧ (TileMap.off q.tileMap.size i).toNat = p ∧
        q.tileMap.at' i = some a := by
    intro p a hp
    have hlt : p < q.tileMap.map.length := by
      by_contra hc
      rw [List.getElem?_eq_none (by omega)] at hp; cases hp
    obtain ⟨i, hi, ho⟩ := TileMap.off_surj h.wf hlt
    exact ⟨i, hi, ho, by simp only [TileMap.at', ho, hp, Option.getD_some]⟩
  have hmem : ∀ a, m.fifos a ≠ none ↔ some a ∈ q.tileMap.map := by
    intro a
    constructor
    · intro ha
      obtain ⟨i, hi, hia⟩ := h.fifoUsed a ha
      have hlt := TileMap.off_toNat_lt h.wf hi
      simp only [TileMap.at', List.getElem?_eq_getElem hlt, Option.getD_some] at hia
      rw [← hia]; exact List.getElem_mem hlt
    · intro ha
      obtain ⟨p, hp⟩ := List.getElem?_of_mem ha
      obtain ⟨i, hi, _, hia⟩ := hslot p a hp
      exact h.slotLive i a hi hia
  have hinj : ∀ (p p' : Nat) (a : Nat), q.tileMap.map[p]? = some (some a) → q.tileMap.map[p']? = some (some a) →
      p = p' := by
    intro p p' a hp hp'
    obtain ⟨i, hi, ho, hia⟩ := hslot p a hp
    obtain ⟨j, hj, ho', hja⟩ := hslot p' a hp'
    rw [← ho, ← ho', h.slotInj i j a hi hj hia hja]
  obtain ⟨N, hlen⟩ : ∃ N, ∀ a, m.fifos a ≠ none → (G a).length ≤ N :=
    ⟨(q.tileMap.map.map fun x => match x with | none => 0 | some a => (G a).length).sum,
      fun a ha => le_sum (List.mem_map.mpr ⟨some a, (hmem a).mp ha, rfl⟩)⟩
  obtain ⟨m', hm', hf, hi, ho⟩ := destroy_list _ G q.tileMap.map m hinj hmem h.holds h.itemOwn
    h.itemUsed hlen
  refine ⟨N, m', fun fuel hfu => ?_, hf, hi, ho⟩
  obtain ⟨m'', hm'', hf', hi', ho'⟩ := destroy_list fuel G q.tileMap.map m hinj hmem h.holds h.itemOwn
    h.itemUsed (fun a ha => le_trans (hlen a ha) hfu)
  have : m'' = m' := by
    obtain ⟨f1, i1, o1⟩ := m'
    obtain ⟨f2, i2, o2⟩ := m''
    have e1 : f2 = f1 := by funext a; exact (hf' a).trans (hf a).symm
    have e2 : i2 = i1 := by funext a; exact (hi' a).trans (hi a).symm
    have e3 : o2 = o1 := ho'.trans ho.symm
    rw [e1, e2, e3]
  rw [destroy, hm'', this]

end QueueMemory

end Verif
