import Verif.Lemmas.TileMap

/-!
# C02: tiles never alias and survive growth
-/

namespace Verif.TileMap

open Spec.TileMap (ValidSize InBox Op Allowed AllAllowed)

variable {α : Type}

/-- **C02, slots.**  In a map of any size that can be allocated, every position inside the map has a
slot inside the allocation (no assertion fails and nothing overflows), and different positions have
different slots. -/
theorem slots_in_bounds_and_distinct (s : Int) (hs : ValidSize s) (i j : TileIndex)
    (hi : InBox s i) (hj : InBox s j) :
    ∃ n oi oj, mapSize s = .ok n ∧ offset s i = .ok oi ∧ offset s j = .ok oj ∧
      0 ≤ oi ∧ oi < n ∧ (i ≠ j → oi ≠ oj) :=
  ⟨_, _, _, mapSize_ok hs, offset_ok hs hi, offset_ok hs hj, off_nonneg hs hi, off_lt hs hi,
    fun hne he => hne (off_inj hs hi hj he)⟩

example : ValidSize 10 ∧ InBox 10 ⟨-10, 9⟩ ∧ InBox 10 ⟨9, -10⟩ := by decide

/-- Every map size beyond 23170 (a canvas of about 1.48 million pixels from the origin) overflows
`int`: `ValidSize` is exactly the range of sizes the code can handle. -/
theorem larger_sizes_overflow (s : Int) (hs : 23170 < s) : mapSize s = .error .intOverflow :=
  mapSize_err hs

/-- Growing: allocate a larger map and copy everything (what `operation_queue_resize` does). -/
def grow (m : TileMap α) (newSize : Int) : Except Fault (TileMap α) := do
  let n ← new newSize
  m.copyTo n

/-- One client call on the model. -/
def clientStep (m : TileMap α) : Op α → Except Fault (Option α × TileMap α)
  | .put i v => do let m' ← m.put i v; pure (none, m')
  | .get i => do let v ← m.get i; pure (v, m)
  | .grow t => do let m' ← grow m t; pure (none, m')

/-- A history of client calls on the model. -/
def clientRun (m : TileMap α) : List (Op α) → Except Fault (List (Option α))
  | [] => .ok []
  | op :: ops => do
    let (o, m') ← clientStep m op
    let os ← clientRun m' ops
    pure (o :: os)

/-- **C02.**  Every history of stores, reads and growth on a fresh map behaves like a plain function
from positions to items that is empty at the start: no fault, and every read returns the last item
stored at exactly that position, whatever was stored elsewhere and however often the map grew. -/
theorem tile_map_is_a_function (s : Int) (hs : ValidSize s) (ops : List (Op α))
    (h : AllAllowed s ops) :
    (do let m ← new s; clientRun m ops) = .ok (Spec.TileMap.outs (fun _ => none) ops) := by
  suffices H : ∀ (ops : List (Op α)) (m : TileMap α) (f : TileIndex → Option α), WF m →
      (∀ i, InBox m.size i → m.at' i = f i) → (∀ i, ¬ InBox m.size i → f i = none) →
      AllAllowed m.size ops → clientRun m ops = .ok (Spec.TileMap.outs f ops) by
    obtain ⟨m, hm, hwf, hsz, hat⟩ := new_ok (α := α) hs
    rw [hm]
    exact H ops m _ hwf (fun i _ => hat i) (fun _ _ => rfl) (by rw [hsz]; exact h)
  intro ops
  induction ops with
  | nil => intros; rfl
  | cons op ops ih =>
    intro m f hwf hin hout hall
    obtain ⟨hop, hrest⟩ := hall
    cases op with
    | put i v =>
      have hi : InBox m.size i := hop
      obtain ⟨hwf', hsz', hat', hoth⟩ := put_wf hwf hi (put_ok hwf hi v)
      have := ih _ (Spec.TileMap.next f (.put i v)) hwf' (by
        intro j hj
        by_cases hji : j = i
        · subst hji; rw [hat']; simp [Spec.TileMap.next]
        · rw [hoth j hj hji, hin j hj]; simp [Spec.TileMap.next, hji]) (by
        intro j hj
        have hji : j ≠ i := fun he => hj (he ▸ hi)
        simp [Spec.TileMap.next, hji]; exact hout j hj) hrest
      simp only [clientRun, clientStep, put_ok hwf hi, bind, Except.bind, pure, Except.pure]
        at this ⊢
      rw [this]; rfl
    | get i =>
      have hi : InBox m.size i := hop
      have := ih m f hwf hin hout hrest
      simp only [clientRun, clientStep, get_ok hwf hi, bind, Except.bind, pure, Except.pure]
        at this ⊢
      rw [this, hin i hi]; rfl
    | grow t =>
      obtain ⟨hle, ht⟩ := hop
      obtain ⟨n, hn, hnwf, hnsz, hnat⟩ := new_ok (α := α) ht
      obtain ⟨m', hm', hwf', hsz', hold, hnew⟩ := copyTo_ok hwf hnwf (by rw [hnsz]; exact hle)
      have hs' : m'.size = t := by rw [hsz', hnsz]
      have := ih m' f hwf' (by
        intro j hj
        rw [hs'] at hj
        by_cases hjo : InBox m.size j
        · rw [hold j hjo, hin j hjo]
        · rw [hnew j (by rw [hnsz]; exact hj) hjo, hnat, hout j hjo]) (by
        intro j hj
        rw [hs'] at hj
        exact hout j (fun hjo => hj (inBox_mono hle hjo))) (by rw [hs']; exact hrest)
      simp only [clientRun, clientStep, grow, hn, hm', bind, Except.bind, pure, Except.pure]
        at this ⊢
      rw [this]; rfl

example : ValidSize 1 ∧ AllAllowed 1 [Op.put ⟨-1, 0⟩ (some 5), .put ⟨0, -1⟩ (some 6), .grow 2,
    .put ⟨1, 1⟩ (some 7), .get ⟨-1, 0⟩, .get ⟨-2, -2⟩] := by
  simp [AllAllowed, Allowed, Spec.TileMap.nextSize, InBox, ValidSize]

end Verif.TileMap
