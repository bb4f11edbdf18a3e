import Verif.Lemmas.FullSurface
import Verif.Props.C26_SymmetryHistory

/-!
# C09: the rectangles returned by `end_atomic` cover every changed pixel
-/

namespace Verif.Full
open Verif.Dab Verif.Symm Verif.Blend Spec.Rect

variable {K : Type} [Field K] [LinearOrder K] [IsStrictOrderedRing K] [FloorRing K]

/-- A session after which no dab is waiting: it is empty, or ends with `end_atomic`, possibly followed
by changes of the symmetry setting. -/
inductive Settled : List (Event K) → Prop
  | start : Settled []
  | ended (es order roi) : Settled (es ++ [.endAtomic order roi])
  | set {es} (h : Settled es) (active cx cy angle type lines) :
      Settled (es ++ [.setSymmetry active cx cy angle type lines])

/-- What happens inside a block: dabs and sampling. -/
def Event.Drawing : Event K → Prop
  | .dab _ => True
  | .sample _ => True
  | _ => False

/-- The dabs of a list of events, in order. -/
def dabs : List (Event K) → List (Args K)
  | [] => []
  | .dab a :: es => a :: dabs es
  | _ :: es => dabs es

/-- The last dab is visible, or none is. -/
def LastVisible (es : List (Event K)) : Prop :=
  (∀ a ∈ dabs es, Invisible a) ∨ ∃ l a, dabs es = l ++ [a] ∧ ¬ Invisible a

theorem settled_canvas {b : Build} {env : Env K} (he : env.Valid) {trig : Trig K} {alloc : Int → Bool}
    {garbage : Int → Transform K} {dirty : Int} {canvas : Canvas} {s0 s1 : FSurf K}
    (h0 : init b trig alloc garbage dirty canvas = .ok s0) {pre : List (Event K)} (hset : Settled pre)
    (ho : ∀ e ∈ pre, e.Ok) (h1 : run b env trig s0 pre = .ok s1) :
    Sound b env trig s1 s1.surf.canvas := by
  obtain ⟨s, hs, hsound, hcan⟩ := init_sound b env trig alloc garbage dirty canvas
  rw [h0] at hs
  cases hs
  induction hset generalizing s1 with
  | start =>
    cases h1
    rw [hcan]; exact hsound
  | ended es order roi =>
    obtain ⟨s2, h2, h3⟩ := run_append h1
    obtain ⟨c, hc⟩ := run_sound he es s0 s2 canvas (fun e he => ho e (by simp [he])) h2 hsound
    obtain ⟨rs, s3, h4, h5⟩ := run_cons h3
    cases h5
    obtain ⟨h6, h7, _⟩ := endAtomic_sound (order := order)
      (ho (.endAtomic order roi) (by simp) : (Event.endAtomic order roi).Ok)
      (show endAtomic env order roi s2 = _ from h4) hc
    rw [h7]; exact h6
  | @set es h active cx cy angle type lines ih =>
    obtain ⟨s2, h2, h3⟩ := run_append h1
    have hs2 := ih (fun e he => ho e (by simp [he])) h2
    obtain ⟨rs, s3, h4, h5⟩ := run_cons h3
    cases h5
    cases h4
    exact ⟨hs2.stands, hs2.proper, hs2.cap, hs2.big,
      setPending_inv trig hs2.symm active cx cy angle type (ho (.setSymmetry active cx cy angle type lines) (by simp) :
        (Event.setSymmetry active cx cy angle type lines).Ok)⟩

/-- Inside a block: what is covered. `seen` says whether there was a visible dab. -/
theorem block_sound {b : Build} {env : Env K} (he : env.Valid) {trig : Trig K} (es : List (Event K))
    (s s' : FSurf K) (c0 c : Canvas) (n : Int) (hd : ∀ e ∈ es, e.Drawing)
    (h : run b env trig s es = .ok s') (hs : Sound b env trig s c) (hc : Covered c0 c s.boxes n)
    (hn : (∀ a ∈ dabs es, Invisible a) ∨ n = usedOf s.symm s.numB) :
    ∃ c', Sound b env trig s' c' ∧ Covered c0 c' s'.boxes n ∧ s'.symm = s.symm ∧ s'.numB = s.numB ∧
      (∀ l a, dabs es = l ++ [a] → ¬ Invisible a → s'.dirty = usedOf s.symm s.numB) ∧
      (dabs es = [] → s'.dirty = s.dirty) := by
  induction es generalizing s c with
  | nil =>
    cases h
    exact ⟨c, hs, hc, rfl, rfl, fun l a h => by simp [dabs] at h, fun _ => rfl⟩
  | cons e es ih =>
    obtain ⟨rs, s1, h1, h2⟩ := run_cons h
    have hd' : ∀ e ∈ es, e.Drawing := fun e he => hd e (by simp [he])
    cases e with
    | dab a =>
      obtain ⟨⟨m, s1'⟩, h3, h4⟩ := except_bind_ok (show (drawDab b env s a >>= fun x => .ok ([], x.2)) = _ from h1)
      cases h4
      obtain ⟨c1, hs1, e1, e2, e3, hvis, hinv, hcov⟩ := drawDab_sound (c0 := c0) he h3 hs
      simp only at h2
      obtain ⟨c', hs', hc', f1, f2, f3, f4⟩ := ih s1' c1 hd' h2 hs1
        (hcov n (by
          rcases hn with hn | hn
          · exact Or.inl (hn a (by simp [dabs]))
          · exact Or.inr hn.ge) hc)
        (by
          rcases hn with hn | hn
          · exact Or.inl fun a ha => hn a (by simp [dabs, ha])
          · exact Or.inr (by rw [e1, e2]; exact hn))
      refine ⟨c', hs', hc', f1.trans e1, f2.trans e2, ?_, by simp [dabs]⟩
      intro l a' hl ha'
      by_cases hes : dabs es = []
      · rw [f4 hes]
        have : a' = a := by
          simp only [dabs, hes] at hl
          cases l with
          | nil => simp at hl; exact hl.symm
          | cons x l => simp at hl
        subst this
        rw [hvis ha']
        exact min_eq_right (usedOf_le _ hs.big)
      · rw [← e1, ← e2]
        cases l with
        | nil => simp only [dabs, List.nil_append, List.cons.injEq] at hl; exact absurd hl.2 hes
        | cons x l =>
          simp only [dabs, List.cons_append, List.cons.injEq] at hl
          exact f3 l a' hl.2 ha'
    | sample ts =>
      unfold step at h1
      obtain ⟨⟨vs, s1'⟩, h3, h4⟩ := except_bind_ok h1
      cases h4
      have hs1 := sample_sound h3 hs
      exact ih { s with surf := s1' } c hd' h2 hs1 hc hn
    | setSymmetry => exact absurd (hd _ (List.mem_cons_self)) (by simp [Event.Drawing])
    | beginAtomic => exact absurd (hd _ (List.mem_cons_self)) (by simp [Event.Drawing])
    | endAtomic => exact absurd (hd _ (List.mem_cons_self)) (by simp [Event.Drawing])

/-- **C09, partial.** After any history of the surface that ends outside a block, begin a block, draw
any dabs with any symmetry, sample at any time, and end the block into a list of any size: every pixel
whose colour is not what it was before the block lies in one of the returned rectangles; there are no
more rectangles than the list can hold. The condition that makes it partial is `LastVisible`: the last
dab of the block must be visible (unless none is); see `changes_not_reported`. -/
theorem changed_pixels_reported_partial {b : Build} {env : Env K} (he : env.Valid) {trig : Trig K}
    {alloc al bal : Int → Bool} {garbage : Int → Transform K} {dirty : Int} {canvas : Canvas}
    {s0 s1 s2 s3 s4 : FSurf K} {pre mid : List (Event K)} {r0 : List Rect} {rs : List Rect}
    {order : List TileIndex → List TileIndex} {n : Int} {old : Int → Rect}
    (h0 : init b trig alloc garbage dirty canvas = .ok s0)
    (hpre : Settled pre) (hok : ∀ e ∈ pre, e.Ok) (h1 : run b env trig s0 pre = .ok s1)
    (h2 : step b env trig s1 (.beginAtomic al bal) = .ok (r0, s2))
    (hmid : ∀ e ∈ mid, e.Drawing) (hlast : LastVisible mid) (h3 : run b env trig s2 mid = .ok s3)
    (hord : ∀ l, (order l).Perm l)
    (h4 : step b env trig s3 (.endAtomic order (some (n, old))) = .ok (rs, s4)) :
    (∀ X Y p q, pixel s1.surf.canvas X Y = .ok p → pixel s4.surf.canvas X Y = .ok q → p ≠ q →
      ∃ r ∈ rs, Has r X Y) ∧ (rs ≠ [] → (rs.length : Int) ≤ n) := by
  have hs1 := settled_canvas he h0 hpre hok h1
  obtain ⟨s2', h2a, h2b⟩ := except_bind_ok (show (beginAtomic trig al bal s1 >>= fun x => .ok ([], x)) = _ from h2)
  cases h2b
  obtain ⟨hs2, hdirty, hsurf, _⟩ := beginAtomic_sound h2a hs1
  have hc0 : ∀ m, Covered s1.surf.canvas s1.surf.canvas s2.boxes m := by
    intro m X Y p q hp hq hne
    rw [hp] at hq; cases hq; exact absurd rfl hne
  have key : ∃ m c', (m ≤ 0 ∨ m = s3.dirty) ∧ Sound b env trig s3 c' ∧ Covered s1.surf.canvas c' s3.boxes m := by
    rcases hlast with hl | ⟨l, a, hl, ha⟩
    · obtain ⟨c', hs3, hc, _⟩ := block_sound he mid s2 s3 s1.surf.canvas _ 0 hmid h3 hs2 (hc0 0) (Or.inl hl)
      exact ⟨0, c', Or.inl le_rfl, hs3, hc⟩
    · obtain ⟨c', hs3, hc, _, _, hd, _⟩ := block_sound he mid s2 s3 s1.surf.canvas _
        (usedOf s2.symm s2.numB) hmid h3 hs2 (hc0 _) (Or.inr rfl)
      exact ⟨_, c', Or.inr (hd l a hl ha).symm, hs3, hc⟩
  obtain ⟨m, c', hm, hs3, hc⟩ := key
  obtain ⟨_, hcan, hrects⟩ := endAtomic_sound hord
    (show endAtomic env order (some (n, old)) s3 = _ from h4) hs3
  obtain ⟨hlen, hcover⟩ := hrects n old rfl
  constructor
  · intro X Y p q hp hq hne
    rw [hcan] at hq
    obtain ⟨i, hi0, hi1, hh⟩ := hc X Y p q hp hq hne
    obtain ⟨r, hr, hsub⟩ := hcover i hi0 (by omega)
    exact ⟨r, hr, hsub X Y hh⟩
  · intro hne
    have := List.length_pos_iff.mpr hne
    omega

/-! ## Concrete sessions, and what is missing -/

/-- Cosine and sine, exact at 0 and at plus and minus `pi / 2`. -/
def demoTrig : Trig ℚ :=
  { cos := fun a => if a = 0 then 1 else 0
    sin := fun a => if a = 0 then 0 else if a < 0 then -1 else 1
    pi := 22 / 7 }

/-- A new surface with a transparent canvas, a block with the events `mid`, and its end with a list of
`n` rectangles. -/
def demo (pre : List (Event ℚ)) (mid : List (Event ℚ)) (n : Int) :
    Except Fault (FSurf ℚ × FSurf ℚ × FSurf ℚ × FSurf ℚ × List Rect × FSurf ℚ) := do
  let s0 ← init .normal demoTrig (fun _ => true) (fun _ => unit) 0 (fun _ => .ok fun _ => 0)
  let s1 ← run .normal demoEnv demoTrig s0 pre
  let r ← step .normal demoEnv demoTrig s1 (.beginAtomic (fun _ => true) (fun _ => true))
  let s3 ← run .normal demoEnv demoTrig r.2 mid
  let e ← step .normal demoEnv demoTrig s3 (.endAtomic id (some (n, fun _ => Rect.zero)))
  return (s0, s1, r.2, s3, e.1, e.2)

/-- What is observed of such a session: the rectangles, and a pixel before and after. -/
def observe (pre mid : List (Event ℚ)) (n X Y : Int) : Except Fault (List Rect × Except Fault Px × Except Fault Px) :=
  match demo pre mid n with
  | .error e => .error e
  | .ok (_, s1, _, _, rs, s4) => .ok (rs, pixel s1.surf.canvas X Y, pixel s4.surf.canvas X Y)

def seeThrough : Args ℚ := { demoArgs with opaque' := 0 }

def mirror : List (Event ℚ) := [.setSymmetry true 0 20 0 .horizontal 2]

/-- A dab next to the border of a tile, with a mirror image: two rectangles. -/
example : observe mirror [.dab demoArgs] 2 63 30 =
    .ok ([⟨59, 5, 11, 11⟩, ⟨59, 25, 11, 11⟩], .ok ⟨0, 0, 0, 0⟩, .ok ⟨15872, 0, 0, 15872⟩) := by
  decide +kernel

/-- The English claim C09 for one surface session. -/
def Reported (s1 s4 : FSurf K) (rs : List Rect) : Prop :=
  ∀ X Y p q, pixel s1.surf.canvas X Y = .ok p → pixel s4.surf.canvas X Y = .ok q → p ≠ q →
    ∃ r ∈ rs, Has r X Y

theorem observe_not_reported {pre mid : List (Event ℚ)} {n X Y : Int} {rs : List Rect} {p q : Px}
    (h : observe pre mid n X Y = .ok (rs, .ok p, .ok q)) (hne : p ≠ q) (hr : ∀ r ∈ rs, ¬ Has r X Y) :
    ∃ s0 s1 s2 s3 s4, demo pre mid n = .ok (s0, s1, s2, s3, rs, s4) ∧ ¬ Reported s1 s4 rs := by
  unfold observe at h
  cases hd : demo pre mid n with
  | error e => rw [hd] at h; cases h
  | ok v =>
    obtain ⟨s0, s1, s2, s3, rs', s4⟩ := v
    rw [hd] at h
    simp only [Except.ok.injEq, Prod.mk.injEq] at h
    obtain ⟨rfl, h1, h2⟩ := h
    refine ⟨s0, s1, s2, s3, s4, rfl, fun hrep => ?_⟩
    obtain ⟨r, hr1, hr2⟩ := hrep X Y p q h1 h2 hne
    exact hr r hr1 hr2

/-- **C09 fails**: if a visible dab is followed by an invisible one in the same block, nothing is
reported, although the canvas changed. -/
theorem changes_not_reported :
    ∃ s0 s1 s2 s3 s4, demo [] [.dab demoArgs, .dab seeThrough] 4 = .ok (s0, s1, s2, s3, [], s4) ∧
      ¬ Reported s1 s4 [] :=
  observe_not_reported (X := 63) (Y := 10) (p := ⟨0, 0, 0, 0⟩) (q := ⟨15872, 0, 0, 15872⟩)
    (by decide +kernel) (by decide) (by simp)

/-- The same for every block: an invisible last dab makes `end_atomic` report nothing. -/
theorem invisible_last_dab_hides_all {b : Build} {env : Env K} (he : env.Valid) {trig : Trig K}
    {s s1 s2 : FSurf K} {c : Canvas} (hs : Sound b env trig s c) {a : Args K} (ha : Invisible a)
    {r1 rs : List Rect} (h1 : step b env trig s (.dab a) = .ok (r1, s1))
    {order : List TileIndex → List TileIndex} (ho : ∀ l, (order l).Perm l) {n : Int} {old : Int → Rect}
    (h2 : step b env trig s1 (.endAtomic order (some (n, old))) = .ok (rs, s2)) : rs = [] := by
  obtain ⟨⟨m, s1'⟩, h3, h4⟩ := except_bind_ok (show (drawDab b env s a >>= fun x => .ok ([], x.2)) = _ from h1)
  cases h4
  obtain ⟨c1, hs1, _, _, _, _, hinv, _⟩ := drawDab_sound (c0 := c) he h3 hs
  obtain ⟨_, _, hr⟩ := endAtomic_sound ho (show endAtomic env order (some (n, old)) s1' = _ from h2) hs1
  have := (hr n old rfl).1
  rw [(hinv ha).1] at this
  exact List.eq_nil_of_length_eq_zero (by omega)

/-- **C09 fails** also if symmetry is switched off between two dabs of a block: the changes made by the
mirror image of the first dab are not reported. -/
theorem changes_not_reported_after_toggle :
    ∃ s0 s1 s2 s3 s4 rs, demo mirror
        [.dab demoArgs, .setSymmetry false 0 20 0 .horizontal 2, .dab demoArgs] 4 = .ok (s0, s1, s2, s3, rs, s4) ∧
      ¬ Reported s1 s4 rs := by
  obtain ⟨s0, s1, s2, s3, s4, h⟩ := observe_not_reported (pre := mirror)
    (mid := [.dab demoArgs, .setSymmetry false 0 20 0 .horizontal 2, .dab demoArgs]) (n := 4)
    (X := 63) (Y := 30) (p := ⟨0, 0, 0, 0⟩) (q := ⟨15872, 0, 0, 15872⟩) (rs := [⟨59, 5, 11, 11⟩])
    (by decide +kernel) (by decide) (by decide)
  exact ⟨s0, s1, s2, s3, s4, _, h⟩

/-! ## C54: the list of rectangles is never overrun -/

theorem roundf_lt (n m i : Int) (hi0 : 0 ≤ i) :
    0 ≤ roundf ((i : Rat) / max 1 ((m : Rat) / (n : Rat))) :=
  roundf_nonneg i hi0 _ (le_max_left _ _)

/-- `end_atomic` writes only inside a list that can hold at least one rectangle, whatever the number of
boxes. -/
theorem outRects_in_bounds (boxes : Int → Rect) {boxCap n m : Int} (old : Int → Rect) (hn : 1 ≤ n)
    (hm : m ≤ boxCap) : ∃ rs, outRects boxes boxCap n m old = .ok rs := by
  have key : ∀ (l : List Int) (out : Int → Rect), (∀ i ∈ l, 0 ≤ i ∧ i < m) →
      ∃ out', l.foldlM (fun (out : Int → Rect) i =>
        if 0 ≤ outIndex n m i ∧ outIndex n m i < n ∧ i < boxCap then
          .ok (setBox out (outIndex n m i) ((out (outIndex n m i)).expandRect (boxes i)))
        else .error .outOfBounds) out = (.ok out' : Except Fault (Int → Rect)) := by
    intro l
    induction l with
    | nil => intro out _; exact ⟨out, rfl⟩
    | cons i l ih =>
      intro out hl
      obtain ⟨hi0, hi1⟩ := hl i (by simp)
      have hk : 0 ≤ outIndex n m i ∧ outIndex n m i < n ∧ i < boxCap := by
        unfold outIndex
        have := roundf_lt n m i hi0
        split_ifs with hmn <;> omega
      obtain ⟨out', h⟩ := ih (setBox out (outIndex n m i)
        ((out (outIndex n m i)).expandRect (boxes i))) (fun j hj => hl j (by simp [hj]))
      refine ⟨out', ?_⟩
      rw [List.foldlM_cons]
      simp only [if_pos hk]
      exact h
  obtain ⟨out', h⟩ := key (cRange 0 m) (fun i => if 0 ≤ i ∧ i < min n m then Rect.zero else old i)
    (fun i hi => mem_cRange.mp hi)
  exact ⟨_, by unfold outRects; dsimp only; rw [h]; rfl⟩

example : ∃ rs, outRects (fun i => ⟨i, i, 1, 1⟩) 40 3 40 (fun _ => Rect.zero) = .ok rs ∧ rs.length = 3 := by
  obtain ⟨rs, h⟩ := outRects_in_bounds (fun i => ⟨i, i, 1, 1⟩) (boxCap := 40) (n := 3) (m := 40)
    (fun _ => Rect.zero) (by decide) (by decide)
  refine ⟨rs, h, ?_⟩
  have := (outRects_sound (boxes := fun i => ⟨i, i, 1, 1⟩) (fun i => Or.inr ⟨le_refl _, le_refl _⟩) h).1
  omega

/-- **C54 fails** for a list with room for no rectangle: with any dirty box, the rectangle at index -1 is
written. -/
theorem empty_list_overrun (boxes : Int → Rect) {boxCap m : Int} (old : Int → Rect) (hm : 1 ≤ m) :
    outRects boxes boxCap 0 m old = .error .outOfBounds := by
  have h0 : outIndex 0 m 0 < 0 := by
    unfold outIndex
    rw [if_pos (by omega)]
    omega
  unfold outRects
  dsimp only
  rw [Mask.cRange_cons (by omega), List.foldlM_cons]
  simp only [bind, Except.bind]
  rw [if_neg (by omega)]

/-- A whole session that does so. -/
theorem empty_list_session : observe [] [.dab demoArgs] 0 0 0 = .error .outOfBounds := by decide +kernel

/-- **C54 fails** for `end_atomic` on a new surface before the first dab or `begin_atomic`: the number of
dirty boxes is an uninitialised variable. -/
theorem end_before_begin_reads_garbage :
    (do
      let s0 ← init .normal demoTrig (fun _ => true) (fun _ => unit) 1000000 (fun _ => .ok fun _ => 0)
      let e ← step .normal demoEnv demoTrig s0 (.endAtomic id (some (4, fun _ => Rect.zero)))
      return e.1) = (Except.error .outOfBounds : Except Fault (List Rect)) := by decide +kernel

end Verif.Full
