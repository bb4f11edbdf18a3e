import Verif.Model.FullSurface

/-!
# Replacing the queued operations by others that do the same

All functions of the queue treat the operations as opaque values, so replacing every operation by its image under a function
commutes with them. If the image does the same to every tile, nobody notices.
-/

namespace Verif

namespace TileMap
variable {α γ : Type}

/-- Replace the values. -/
def mapVal (g : α → γ) (m : TileMap α) : TileMap γ := { size := m.size, map := m.map.map (Option.map g) }

theorem new_map (g : α → γ) (n : Int) : (new n : Except Fault (TileMap α)).map (mapVal g) = new n := by
  unfold new
  cases mapSize n with
  | error f => rfl
  | ok k =>
    simp only [bind, Except.bind, pure, Except.pure, Except.map, mapVal, List.map_replicate, Option.map_none]

theorem get_map (g : α → γ) (m : TileMap α) (idx : TileIndex) :
    (get m idx).map (Option.map g) = get (mapVal g m) idx := by
  unfold get
  rw [show (mapVal g m).size = m.size from rfl]
  cases offset m.size idx with
  | error f => rfl
  | ok o =>
    simp only [bind, Except.bind, mapVal, List.getElem?_map]
    cases m.map[o.toNat]? <;> rfl

theorem put_map (g : α → γ) (m : TileMap α) (idx : TileIndex) (v : Option α) :
    (put m idx v).map (mapVal g) = put (mapVal g m) idx (v.map g) := by
  unfold put
  rw [show (mapVal g m).size = m.size from rfl]
  cases offset m.size idx with
  | error f => rfl
  | ok o =>
    simp only [bind, Except.bind, mapVal, List.length_map]
    by_cases h : o.toNat < m.map.length
    · rw [if_pos h, if_pos h]
      simp only [pure, Except.pure, Except.map, List.map_set, mapVal]
    · rw [if_neg h, if_neg h]
      rfl

theorem contains_map (g : α → γ) (m : TileMap α) (idx : TileIndex) : contains (mapVal g m) idx = contains m idx := rfl

theorem copyStep_map (g : α → γ) (m o : TileMap α) (idx : TileIndex) :
    (copyStep m o idx).map (mapVal g) = copyStep (mapVal g m) (mapVal g o) idx := by
  unfold copyStep
  rw [← get_map]
  cases get m idx with
  | error f => rfl
  | ok v => exact put_map g o idx v

theorem copyTo_map (g : α → γ) (m o : TileMap α) : (copyTo m o).map (mapVal g) = copyTo (mapVal g m) (mapVal g o) := by
  unfold copyTo
  by_cases h : ¬ o.size ≥ m.size
  · rw [if_pos h, if_pos (show ¬ (mapVal g o).size ≥ (mapVal g m).size from h)]
    rfl
  · rw [if_neg h, if_neg (show ¬ ¬ (mapVal g o).size ≥ (mapVal g m).size from h)]
    show Except.map _ (List.foldlM _ _ _) = List.foldlM _ _ (allIndices m.size)
    generalize allIndices m.size = l
    induction l generalizing o with
    | nil => rfl
    | cons i l ih =>
      simp only [List.foldlM_cons]
      rw [← copyStep_map]
      have : ∀ o : TileMap α, (List.foldlM (copyStep m) o l).map (mapVal g) = List.foldlM (copyStep (mapVal g m)) (mapVal g o) l := by
        intro o
        by_cases hs : o.size ≥ m.size
        · exact ih o (by omega)
        · clear h ih
          induction l generalizing o with
          | nil => rfl
          | cons i l ih =>
            simp only [List.foldlM_cons]
            rw [← copyStep_map]
            cases ho : copyStep m o i with
            | error f => rfl
            | ok o' =>
              refine ih o' ?_
              have : o'.size = o.size := by
                unfold copyStep put at ho
                simp only [bind, Except.bind] at ho
                cases h1 : get m i with
                | error f => rw [h1] at ho; cases ho
                | ok v =>
                  rw [h1] at ho
                  dsimp only at ho
                  cases h2 : offset o.size i with
                  | error f => rw [h2] at ho; cases ho
                  | ok k =>
                    rw [h2] at ho
                    dsimp only at ho
                    split_ifs at ho
                    · cases ho; rfl
              omega
      cases copyStep m o i with
      | error f => rfl
      | ok o' => exact this o'

end TileMap

namespace OpQueue
variable {β γ : Type}

/-- Replace the operations. -/
def mapOps (f : β → γ) (q : OpQueue β) : OpQueue γ :=
  { tileMap := q.tileMap.mapVal (List.map f), dirty := q.dirty, dirtyCap := q.dirtyCap }

theorem resize_map (f : β → γ) (q : OpQueue β) (n : Int) : (resize q n).map (mapOps f) = resize (mapOps f q) n := by
  unfold resize
  rw [← TileMap.new_map (List.map f) n]
  cases (TileMap.new n : Except Fault (TileMap (List β))) with
  | error f => rfl
  | ok m =>
    cases TileMap.mapSize n with
    | error f => rfl
    | ok c =>
      simp only [bind, Except.bind, Except.map]
      rw [show (mapOps f q).tileMap = q.tileMap.mapVal (List.map f) from rfl, ← TileMap.copyTo_map]
      cases q.tileMap.copyTo m with
      | error f => rfl
      | ok m' =>
        simp only [Except.map]
        by_cases h : ¬ (q.dirty.length : Int) ≤ c
        · rw [if_pos h, if_pos (show ¬ ((mapOps f q).dirty.length : Int) ≤ c from h)]
          rfl
        · rw [if_neg h, if_neg (show ¬ ¬ ((mapOps f q).dirty.length : Int) ≤ c from h)]
          rfl

theorem growLoop_map (b : Build) (f : β → γ) (idx : TileIndex) (n : Nat) : ∀ q : OpQueue β,
    (growLoop b idx n q).map (mapOps f) = growLoop b idx n (mapOps f q) := by
  induction n with
  | zero =>
    intro q
    unfold growLoop
    rw [show (mapOps f q).tileMap.contains idx = q.tileMap.contains idx from rfl]
    split_ifs <;> rfl
  | succ n ih =>
    intro q
    unfold growLoop
    rw [show (mapOps f q).tileMap.contains idx = q.tileMap.contains idx from rfl]
    by_cases h : q.tileMap.contains idx = true
    · rw [if_pos h, if_pos h]; rfl
    · rw [if_neg h, if_neg h]
      rw [show (mapOps f q).tileMap.size = q.tileMap.size from rfl]
      cases chk (b.growSize q.tileMap.size) with
      | error f => rfl
      | ok k =>
        simp only [bind, Except.bind]
        rw [← resize_map]
        cases resize q k with
        | error f => rfl
        | ok q' => exact ih q'

/-- The end of `add`: the tile is marked, the operation is appended. -/
theorem rest {f : β → γ} {q : OpQueue β} {idx : TileIndex} {v : Option (List β)} {w : Option (List γ)} (d : List TileIndex)
    (n : Int) (c : Int) (put : (q.tileMap.put idx v).map (TileMap.mapVal (List.map f)) =
      (q.tileMap.mapVal (List.map f)).put idx w) :
    ((do
      let q ← (do
        if ¬ (d.length : Int) < n then throw .assertFail
        if ¬ (d.length : Int) < c then throw .outOfBounds
        pure { tileMap := q.tileMap, dirty := d ++ [idx], dirtyCap := c } : Except Fault (OpQueue β))
      let m ← q.tileMap.put idx v
      pure { q with tileMap := m } : Except Fault (OpQueue β))).map (mapOps f) =
    (do
      let q ← (do
        if ¬ (d.length : Int) < n then throw .assertFail
        if ¬ (d.length : Int) < c then throw .outOfBounds
        pure { tileMap := q.tileMap.mapVal (List.map f), dirty := d ++ [idx], dirtyCap := c } : Except Fault (OpQueue γ))
      let m ← q.tileMap.put idx w
      pure { q with tileMap := m }) := by
  by_cases h1 : ¬ (d.length : Int) < n
  · simp only [if_pos h1]; rfl
  · simp only [if_neg h1]
    by_cases h2 : ¬ (d.length : Int) < c
    · simp only [if_pos h2]; rfl
    · simp only [if_neg h2, pure, Except.pure, bind, Except.bind]
      rw [← put]
      cases q.tileMap.put idx v <;> rfl

theorem add_map (b : Build) (f : β → γ) (q : OpQueue β) (idx : TileIndex) (op : β) :
    (add b q idx op).map (mapOps f) = add b (mapOps f q) idx (f op) := by
  unfold add
  rw [← growLoop_map]
  cases growLoop b idx growFuel q with
  | error f => rfl
  | ok q =>
    simp only [bind, Except.bind, Except.map]
    rw [show (mapOps f q).tileMap = q.tileMap.mapVal (List.map f) from rfl, ← TileMap.get_map]
    cases q.tileMap.get idx with
    | error f => rfl
    | ok slot =>
      simp only [Except.map]
      have hs : (Option.map (List.map f) slot).getD [] = (slot.getD []).map f := by cases slot <;> rfl
      rw [hs]
      generalize slot.getD [] = l
      have put : (q.tileMap.put idx (some (l ++ [op]))).map (TileMap.mapVal (List.map f)) =
          (q.tileMap.mapVal (List.map f)).put idx (some (l.map f ++ [f op])) := by
        rw [TileMap.put_map]
        simp
      have hl : (l.map f = []) ↔ l = [] := List.map_eq_nil_iff
      rw [show (q.tileMap.mapVal (List.map f)).size = q.tileMap.size from rfl]
      simp only [hl, mapOps]
      by_cases h0 : l = []
      · simp only [if_pos h0]
        cases TileMap.mapSize q.tileMap.size with
        | error f => rfl
        | ok n =>
          dsimp only
          obtain ⟨dd, hd⟩ : ∃ dd : Except Fault (List TileIndex), dd =
              if ¬ (q.dirty.length : Int) < n then removeDuplicateTiles q.dirty else pure q.dirty := ⟨_, rfl⟩
          by_cases h3 : ¬ (q.dirty.length : Int) < n
          · rw [if_pos h3] at hd
            simp only [if_pos h3, ← hd]
            cases dd with
            | error f => rfl
            | ok d => exact rest d n q.dirtyCap put
          · rw [if_neg h3] at hd
            simp only [if_neg h3, ← hd]
            cases dd with
            | error f => rfl
            | ok d => exact rest d n q.dirtyCap put
      · simp only [if_neg h0, pure, Except.pure]
        rw [← put]
        cases q.tileMap.put idx (some (l ++ [op])) <;> rfl

/-- The operation popped, and the rest. -/
def mapPop (f : β → γ) (r : Option β × OpQueue β) : Option γ × OpQueue γ := (r.1.map f, mapOps f r.2)

theorem pop_map (f : β → γ) (q : OpQueue β) (idx : TileIndex) :
    (pop q idx).map (mapPop f) = pop (mapOps f q) idx := by
  unfold pop
  rw [show (mapOps f q).tileMap.contains idx = q.tileMap.contains idx from rfl]
  by_cases h : ¬ q.tileMap.contains idx = true
  · rw [if_pos h, if_pos h]; rfl
  · rw [if_neg h, if_neg h]
    rw [show (mapOps f q).tileMap = q.tileMap.mapVal (List.map f) from rfl, ← TileMap.get_map]
    cases q.tileMap.get idx with
    | error f => rfl
    | ok slot =>
      simp only [bind, Except.bind, Except.map]
      match slot with
      | none => rfl
      | some [] =>
        simp only [Option.map_some, List.map_nil]
        rw [← show Option.map (List.map f) none = none from rfl, ← TileMap.put_map]
        cases q.tileMap.put idx none <;> rfl
      | some (o :: l) =>
        simp only [Option.map_some, List.map_cons]
        rw [show some (l.map f) = Option.map (List.map f) (some l) from rfl, ← TileMap.put_map]
        cases q.tileMap.put idx (some l) <;> rfl

theorem getDirtyTiles_map (f : β → γ) (q : OpQueue β) :
    (getDirtyTiles q).map (fun r => (r.1, mapOps f r.2)) = getDirtyTiles (mapOps f q) := by
  unfold getDirtyTiles
  rw [show (mapOps f q).dirty = q.dirty from rfl]
  cases removeDuplicateTiles q.dirty <;> rfl

end OpQueue

namespace Surf
variable {D E T : Type}

/-- Replace the queued operations. -/
def mapOps (f : D → E) (s : Surf D T) : Surf E T := { queue := s.queue.mapOps f, canvas := s.canvas }

/-- The image of an operation touches the same tiles and does the same to them. -/
structure Mute (k : DabKind D T) (k' : DabKind E T) (f : D → E) : Prop where
  tiles : ∀ d, k'.tilesOf (f d) = k.tilesOf d
  process : ∀ t d v, k'.processOp t (f d) v = k.processOp t d v

theorem drainLoop_map {k : DabKind D T} {k' : DabKind E T} {f : D → E} (h : Mute k k' f) (t : TileIndex) (n : Nat) :
    ∀ (q : OpQueue D) (v : T) (o : Option D),
      (drainLoop k t n q v o).map (fun r => (r.1.mapOps f, r.2)) = drainLoop k' t n (q.mapOps f) v (o.map f) := by
  induction n with
  | zero =>
    intro q v o
    cases o <;> rfl
  | succ n ih =>
    intro q v o
    cases o with
    | none => rfl
    | some o =>
      simp only [drainLoop, Option.map_some]
      rw [h.process, ← OpQueue.pop_map]
      cases q.pop t with
      | error f => rfl
      | ok r => exact ih r.2 _ r.1

theorem waiting_map (f : D → E) (q : OpQueue D) (t : TileIndex) : waiting (q.mapOps f) t = waiting q t := by
  unfold waiting
  rw [show (q.mapOps f).tileMap.contains t = q.tileMap.contains t from rfl,
    show (q.mapOps f).tileMap = q.tileMap.mapVal (List.map f) from rfl, ← TileMap.get_map]
  by_cases h : q.tileMap.contains t = true
  · rw [if_pos h, if_pos h]
    cases q.tileMap.get t with
    | error f => rfl
    | ok o =>
      cases o with
      | none => rfl
      | some l => simp [Except.map]
  · rw [if_neg h, if_neg h]

theorem processTile_map {k : DabKind D T} {k' : DabKind E T} {f : D → E} (h : Mute k k' f) (a : Bool) (s : Surf D T)
    (t : TileIndex) : (processTile k a s t).map (mapOps f) = processTile k' a (s.mapOps f) t := by
  unfold processTile
  rw [show (s.mapOps f).queue = s.queue.mapOps f from rfl, waiting_map, ← OpQueue.pop_map]
  cases s.queue.pop t with
  | error f => rfl
  | ok r =>
    obtain ⟨o, q⟩ := r
    simp only [bind, Except.bind, Except.map, OpQueue.mapPop]
    cases o with
    | none => rfl
    | some o =>
      simp only [Option.map_some]
      by_cases ha : ¬ a = true
      · rw [if_pos ha, if_pos ha]; rfl
      · rw [if_neg ha, if_neg ha]
        have := drainLoop_map h t (waiting s.queue t) q (s.canvas t) (some o)
        rw [show (s.mapOps f).canvas = s.canvas from rfl]
        rw [Option.map_some] at this
        rw [← this]
        cases drainLoop k t (waiting s.queue t) q (s.canvas t) (some o) <;> rfl

theorem foldlM_map {A B I : Type} {g : A → B} {F : A → I → Except Fault A} {G : B → I → Except Fault B}
    (h : ∀ a i, (F a i).map g = G (g a) i) (l : List I) : ∀ a, (l.foldlM F a).map g = l.foldlM G (g a) := by
  induction l with
  | nil => intro a; rfl
  | cons i l ih =>
    intro a
    simp only [List.foldlM_cons]
    rw [← h]
    cases F a i with
    | error f => rfl
    | ok a' => exact ih a'

theorem drawDab_map {k : DabKind D T} {k' : DabKind E T} {f : D → E} (h : Mute k k' f) (b : Build) (s : Surf D T) (d : D) :
    (drawDab b k s d).map (mapOps f) = drawDab b k' (s.mapOps f) (f d) := by
  unfold drawDab
  rw [h.tiles, show (s.mapOps f).queue = s.queue.mapOps f from rfl]
  rw [← foldlM_map (g := OpQueue.mapOps f) (F := fun q t => OpQueue.add b q t d) (fun q t => OpQueue.add_map b f q t d)]
  cases (k.tilesOf d).foldlM (fun q t => OpQueue.add b q t d) s.queue <;> rfl

theorem sample_map {k : DabKind D T} {k' : DabKind E T} {f : D → E} (h : Mute k k' f) (ts : List TileIndex) :
    ∀ s : Surf D T, (sample k s ts).map (fun r => (r.1, r.2.mapOps f)) = sample k' (s.mapOps f) ts := by
  induction ts with
  | nil => intro s; rfl
  | cons t ts ih =>
    intro s
    unfold sample
    rw [← processTile_map h]
    cases processTile k true s t with
    | error f => rfl
    | ok s' =>
      simp only [bind, Except.bind, Except.map]
      rw [← ih]
      cases sample k s' ts <;> rfl

theorem endAtomic_map {k : DabKind D T} {k' : DabKind E T} {f : D → E} (h : Mute k k' f) (avail : TileIndex → Bool)
    (order : List TileIndex → List TileIndex) (s : Surf D T) :
    (endAtomic k avail order s).map (mapOps f) = endAtomic k' avail order (s.mapOps f) := by
  unfold endAtomic
  rw [show (s.mapOps f).queue = s.queue.mapOps f from rfl, ← OpQueue.getDirtyTiles_map]
  cases s.queue.getDirtyTiles with
  | error f => rfl
  | ok r =>
    obtain ⟨l, q⟩ := r
    simp only [bind, Except.bind, Except.map]
    have := foldlM_map (g := mapOps f) (F := fun s t => processTile k (avail t) s t)
      (G := fun s t => processTile k' (avail t) s t) (fun s t => processTile_map h (avail t) s t) (order l) { s with queue := q }
    rw [show ({ queue := q.mapOps f, canvas := (s.mapOps f).canvas } : Surf E T) =
      mapOps f { s with queue := q } from rfl, ← this]
    cases (order l).foldlM (fun s t => processTile k (avail t) s t) { s with queue := q } <;> rfl

end Surf
end Verif
