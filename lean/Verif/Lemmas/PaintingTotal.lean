import Verif.Props.C44_Sampling
import Verif.Props.C64_Painting
import Verif.Props.C75_Limit
import Verif.Props.C22_GetColor
import Verif.Props.C26_SymmetryHistory
import Verif.Props.C57_TightRects

/-!
# Nothing fails while painting

What is needed for every dab to be drawn and every colour to be sampled.
-/

namespace Verif.Surf
open Spec.TileMap (InBox)
open Spec.OpQueue (St)
open Verif.OpQueue (Rel)

variable {D T : Type}

/-- Why the list of marked tiles does not overflow: nothing is processed early; or one tile of the smallest map is
never painted on; or there is no reason. -/
inductive Room where
  | quiet
  | spare (t : TileIndex)
  | unsure

/-- The reason, as far as the state of the queue is concerned. -/
def Room.Holds : Room → St D → Prop
  | .quiet, st => ∀ t, st.marked t → st.pend t ≠ []
  | .spare t, st => ¬ st.marked t
  | .unsure, _ => True

/-- The reason, as far as the tiles of a dab are concerned. -/
def Room.Allows (b : Build) : Room → List TileIndex → Prop
  | .spare t, ts => InBox b.initSize t ∧ t ∉ ts
  | _, _ => True

theorem initSize_le {b : Build} {q : OpQueue D} {st : St D} (h : Rel b q st) : b.initSize ≤ q.tileMap.size := by
  have k := h.size
  cases b with
  | normal =>
    obtain ⟨n, -, e⟩ := k
    rw [e]
    have : (1 : Int) ≤ 2 ^ n := one_le_pow₀ (by norm_num)
    show (10 : Int) ≤ _
    omega
  | heavyDebug => exact k.1

theorem add_fold_room {b : Build} (g : Room) (d : D) :
    ∀ (ts : List TileIndex) (q : OpQueue D) (st : St D), Rel b q st → g.Holds st → g.Allows b ts →
      (∀ t ∈ ts, InBox 20480 t) →
      (∃ q' st', ts.foldlM (fun q t => OpQueue.add b q t d) q = .ok q' ∧ Rel b q' st' ∧ g.Holds st') ∨
        (g = .unsure ∧ ts.foldlM (fun q t => OpQueue.add b q t d) q = .error .assertFail)
  | [], q, st, h, hg, _, _ => .inl ⟨q, st, rfl, h, hg⟩
  | t :: ts, q, st, h, hg, ha, hin => by
    have hbox : InBox (Spec.OpQueue.farthest b) t := by
      cases b
      · exact hin t (by simp)
      · exact TileMap.inBox_mono (by simp [Spec.OpQueue.farthest]) (hin t (by simp))
    rcases OpQueue.add_spec h t d with ⟨hb, _⟩ | ⟨hi, hp, hall, hx⟩ | ⟨_, _, q1, hx, hr, _⟩
    · exact absurd hbox hb
    · cases g with
      | quiet => exact absurd hp (hg t (hall t hi))
      | spare u => exact absurd (hall u (TileMap.inBox_mono (initSize_le h) ha.1)) hg
      | unsure => right; exact ⟨rfl, by rw [List.foldlM_cons, hx]; rfl⟩
    · have hg1 : g.Holds (Spec.OpQueue.next st (.add t d)) := by
        cases g with
        | quiet =>
          intro u hu
          simp only [Spec.OpQueue.next, Spec.OpQueue.setPend] at hu ⊢
          by_cases hut : u = t
          · simp [hut]
          · rw [if_neg hut]
            rcases hu with hu | ⟨hu, _⟩
            · exact hg u hu
            · exact absurd hu hut
        | spare u =>
          rintro (hu | ⟨hu, -⟩)
          · exact hg hu
          · exact ha.2 (by simp [hu])
        | unsure => trivial
      have ha1 : g.Allows b ts := by
        cases g with
        | spare u => exact ⟨ha.1, fun hu => ha.2 (List.mem_cons_of_mem _ hu)⟩
        | quiet => trivial
        | unsure => trivial
      rw [List.foldlM_cons, hx]
      exact add_fold_room g d ts q1 _ hr hg1 ha1 (fun u hu => hin u (by simp [hu]))

/-- Drawing a dab. -/
theorem draw_room {b : Build} {k : DabKind D T} {g : Room} {s : Surf D T} {c : TileIndex → T} {d : D}
    (hs : ∃ st, Stands b k s st c ∧ g.Holds st) (hd : (k.tilesOf d).Nodup) (ha : g.Allows b (k.tilesOf d))
    (hin : ∀ t ∈ k.tilesOf d, InBox 20480 t) :
    (∃ s', drawDab b k s d = .ok s' ∧ ∃ st, Stands b k s' st (Spec.Surf.drawNow k c d) ∧ g.Holds st) ∨
      (g = .unsure ∧ drawDab b k s d = .error .assertFail) := by
  obtain ⟨st, hst, hg⟩ := hs
  rcases add_fold_room g d _ s.queue st hst.rel hg ha hin with ⟨q', stx, hq', hrx, hgx⟩ | ⟨hu, hq'⟩
  · left
    have hd' : drawDab b k s d = .ok { s with queue := q' } := by
      simp only [drawDab, hq', bind, Except.bind]; rfl
    refine ⟨_, hd', ?_⟩
    obtain ⟨st', hst'⟩ := stands_dab hst d hd hd'
    refine ⟨st', hst', ?_⟩
    -- `st'` and `stx` describe the same queue
    have hpend : ∀ t, st'.pend t = stx.pend t := by
      intro t
      by_cases hin : InBox q'.tileMap.size t
      · rw [← hst'.rel.inside t hin, ← hrx.inside t hin]
      · rw [hst'.rel.outside t hin, hrx.outside t hin]
    have hmark : ∀ t, st'.marked t ↔ stx.marked t := fun t => by
      rw [← hst'.rel.dirtyMem t, ← hrx.dirtyMem t]
    cases g with
    | quiet => intro t ht; rw [hpend]; exact hgx t ((hmark t).mp ht)
    | spare u => exact fun hu => hgx ((hmark u).mp hu)
    | unsure => trivial
  · right
    refine ⟨hu, ?_⟩
    simp only [drawDab, hq', bind, Except.bind]

end Verif.Surf

namespace Verif.Full
open Verif.Dab Verif.Symm Verif.Blend Spec.Rect
open Spec.TileMap (InBox)

variable {K : Type} [Field K] [LinearOrder K] [IsStrictOrderedRing K] [FloorRing K]

/-- What symmetry an application uses: none at all; any settings, but snowflakes with fewer than 32 lines only; or any
settings. -/
inductive Symmetries where
  | off
  | few
  | any
  deriving DecidableEq

/-- The settings: the centre is not too far out. -/
def Symmetries.Fits : Symmetries → Symm.State K → Prop
  | .off, _ => True
  | .few, s => (|s.cx| ≤ 200000 ∧ |s.cy| ≤ 200000) ∧ (s.type = .snowflake → s.lines < 32)
  | .any, s => |s.cx| ≤ 200000 ∧ |s.cy| ≤ 200000

/-- With symmetry, the trigonometric functions are what they should be; and there is no tile set aside. -/
def Symmetries.Allowed (trig : Trig K) (g : Surf.Room) (y : Symmetries) : Prop :=
  y ≠ .off → trig.Laws ∧ ∀ t, g ≠ .spare t

/-- A surface on which nothing can fail but the queue: it stands for `c`, a valid picture; the symmetry settings are as
expected; all boxes exist. -/
structure Fit (b : Build) (env : Env K) (trig : Trig K) (g : Surf.Room) (y : Symmetries) (s : FSurf K) (c : Canvas) :
    Prop where
  sound : Sound b env trig s c
  queue : ∃ st, Surf.Stands b (kind env) s.surf st c ∧ g.Holds st
  cap : s.boxCap = s.numB
  off : s.symm.active = true → y ≠ .off
  settings : y.Fits s.symm.current ∧ y.Fits s.symm.pending
  lines : s.symm.current.lines ≤ 1048576
  valid : CanvasValid c

/-- In a block: there are enough boxes. -/
structure Primed (s : FSurf K) : Prop where
  dirty : s.dirty ≤ s.numB
  boxes : s.symm.active = true → s.symm.current.type = .snowflake → s.symm.current.lines < s.numB

/-- A dab that is not too far out and not too large. -/
structure Reachable (a : Args K) : Prop where
  x : |a.x| ≤ 1100000
  y : |a.y| ≤ 1100000
  radius0 : 0 ≤ a.radius
  radius : a.radius ≤ 10000
  num : |a.posterizeNum| ≤ 10000000

theorem tile_range {v r : K} (hv : |v| ≤ 1100000) (h0 : 0 ≤ r) (hr : r ≤ 10000) :
    (-1111000 ≤ ⌊v - (r + 1)⌋ ∧ ⌊v - (r + 1)⌋ ≤ 1111000) ∧ (-1111000 ≤ ⌊v + (r + 1)⌋ ∧ ⌊v + (r + 1)⌋ ≤ 1111000) := by
  obtain ⟨h1, h2⟩ := abs_le.mp hv
  refine ⟨⟨?_, ?_⟩, ?_, ?_⟩
  · rw [Int.le_floor]; push_cast; linarith
  · have : ⌊v - (r + 1)⌋ < 1111001 := by rw [Int.floor_lt]; push_cast; linarith
    omega
  · rw [Int.le_floor]; push_cast; linarith
  · have : ⌊v + (r + 1)⌋ < 1111001 := by rw [Int.floor_lt]; push_cast; linarith
    omega

theorem convertible_reach {op : Op K} (hx : |op.x| ≤ 1100000) (hy : |op.y| ≤ 1100000) (h0 : 0 ≤ op.radius)
    (hr : op.radius ≤ 10000) : convertible op = true ∧ ∀ t ∈ tilesOf op, InBox 20480 t := by
  obtain ⟨⟨x1, x2⟩, x3, x4⟩ := tile_range hx h0 hr
  obtain ⟨⟨y1, y2⟩, y3, y4⟩ := tile_range hy h0 hr
  constructor
  · unfold convertible tileLo tileHi intMin intMax
    simp only [Bool.and_eq_true, decide_eq_true_eq]
    refine ⟨⟨⟨⟨⟨⟨⟨⟨⟨?_, ?_⟩, ?_⟩, ?_⟩, ?_⟩, ?_⟩, ?_⟩, ?_⟩, ?_⟩, ?_⟩ <;> constructor <;> omega
  · intro t ht
    rw [mem_tilesOf] at ht
    obtain ⟨⟨t1, t2⟩, t3, t4⟩ := ht
    unfold tileLo at t1 t3
    unfold tileHi at t2 t4
    refine ⟨?_, ?_, ?_, ?_⟩ <;> omega

theorem prepare_total {a : Args K} (hn : |a.posterizeNum| ≤ 10000000) : ∃ o, prepare a = .ok o := by
  obtain ⟨h1, h2⟩ := abs_le.mp hn
  obtain ⟨n, hn⟩ := Engine.toInt_near (v := a.posterizeNum * 100 + 1 / 2) (abs_le.mpr ⟨by linarith, by linarith⟩)
  unfold prepare
  rw [hn]
  simp only [bind, Except.bind, pure, Except.pure]
  split_ifs <;> exact ⟨_, rfl⟩

/-- One dab, without its copies. -/
theorem drawInternal_total {b : Build} {env : Env K} (he : env.Valid) {trig : Trig K} {g : Surf.Room} {y : Symmetries}
    {s : FSurf K} {c : Canvas} {a : Args K} {i : Int} (hs : Fit b env trig g y s c) (hi : 0 ≤ i ∧ i < s.numB)
    (ha : Reachable a) (hg : ∀ op, prepare a = .ok (some op) → g.Allows b (tilesOf op) ∧ op.Plain) :
    (∃ m s' c', drawInternal b env s a i = .ok (m, s') ∧ Fit b env trig g y s' c' ∧ s'.symm = s.symm ∧ s'.numB = s.numB) ∨
      (g = .unsure ∧ drawInternal b env s a i = .error .assertFail) := by
  obtain ⟨o, ho⟩ := prepare_total ha.num
  cases o with
  | none =>
    left
    refine ⟨false, s, c, ?_, hs, rfl, rfl⟩
    unfold drawInternal
    rw [ho]
    rfl
  | some op =>
    obtain ⟨e1, e2, e3, -⟩ := Painting.prepare_some ho
    obtain ⟨ga, gp⟩ := hg op ho
    obtain ⟨hc, hin⟩ := convertible_reach (op := op) (e1 ▸ ha.x) (e2 ▸ ha.y) (e3 ▸ ha.radius0) (e3 ▸ ha.radius)
    rcases Surf.draw_room hs.queue (d := op) (tilesOf_nodup op) ga hin with ⟨s', h1, h2⟩ | ⟨hu, h1⟩
    · left
      refine ⟨true, { s with surf := s', boxes := setBox s.boxes i (updateBox (s.boxes i) op) },
        Spec.Surf.drawNow (kind env) c op, ?_, ?_, rfl, rfl⟩
      · unfold drawInternal
        rw [ho]
        simp only [bind, Except.bind, pure, Except.pure]
        rw [if_pos hc, h1]
        simp only
        rw [if_pos (by rw [hs.cap]; exact hi)]
      · obtain ⟨st, q1, q2⟩ := h2
        refine ⟨⟨⟨st, q1⟩, ?_, hs.sound.cap, hs.sound.big, hs.sound.symm⟩, ⟨st, q1, q2⟩, hs.cap, hs.off, hs.settings,
          hs.lines, dab_keeps_canvas_valid he (prepare_valid ho) gp c hs.valid⟩
        intro j
        simp only [setBox]
        split_ifs
        · exact updateBox_proper _ (hs.sound.proper _) op
        · exact hs.sound.proper j
    · right
      refine ⟨hu, ?_⟩
      unfold drawInternal
      rw [ho]
      simp only [bind, Except.bind, pure, Except.pure]
      rw [if_pos hc, h1]

/-- The copies of a dab. -/
theorem passFold_total {b : Build} {env : Env K} (he : env.Valid) {trig : Trig K} {g : Surf.Room} {y : Symmetries} {a : Args K} :
    ∀ (ps : List (Pass K)) {s : FSurf K} {c : Canvas}, Fit b env trig g y s c →
    (∀ p ∈ ps, (0 ≤ p.bbox ∧ p.bbox < s.numB) ∧ Reachable { a with x := p.x, y := p.y, angle := p.angle }) →
    (∀ x y θ op, prepare { a with x := x, y := y, angle := θ } = .ok (some op) → g.Allows b (tilesOf op) ∧ op.Plain) →
    (∃ s' c', ps.foldlM (drawPass b env a) s = .ok s' ∧ Fit b env trig g y s' c' ∧ s'.symm = s.symm ∧ s'.numB = s.numB) ∨
      (g = .unsure ∧ ps.foldlM (drawPass b env a) s = .error .assertFail)
  | [], s, c, hs, _, _ => .inl ⟨s, c, rfl, hs, rfl, rfl⟩
  | p :: ps, s, c, hs, hp, hg => by
    obtain ⟨p1, p2⟩ := hp p List.mem_cons_self
    rcases drawInternal_total he hs p1 p2 (fun op ho => hg _ _ _ op ho) with ⟨m, s1, c1, h1, h2, h3, h4⟩ | ⟨hu, h1⟩
    · have e : drawPass b env a s p = .ok s1 := by
        unfold drawPass
        rw [h1]
        rfl
      rw [List.foldlM_cons, e]
      rcases passFold_total he ps h2 (fun q hq => by rw [h4]; exact hp q (List.mem_cons_of_mem _ hq)) hg with
        ⟨s2, c2, k1, k2, k3, k4⟩ | ⟨hu, k1⟩
      · exact .inl ⟨s2, c2, k1, k2, k3.trans h3, k4.trans h4⟩
      · exact .inr ⟨hu, k1⟩
    · right
      refine ⟨hu, ?_⟩
      rw [List.foldlM_cons]
      unfold drawPass
      rw [h1]
      rfl

omit [FloorRing K] in
theorem copy_fixes (trig : Trig K) (s : Symm.State K) {f : K × K → K × K} (hf : f ∈ Symm.copies trig s) :
    f (s.cx, s.cy) = (s.cx, s.cy) := by
  have hm : ∀ a, Symm.mirror trig (s.cx, s.cy) a (s.cx, s.cy) = (s.cx, s.cy) := by
    intro a
    unfold Symm.mirror Spec.reflectIn
    simp
  have ht : ∀ a, turn trig (s.cx, s.cy) a (s.cx, s.cy) = (s.cx, s.cy) := by
    intro a
    unfold turn Spec.rotateBy
    simp
  unfold Symm.copies at hf
  cases h : s.type <;> simp only [h] at hf
  · rw [List.mem_singleton.mp hf]; exact hm _
  · rw [List.mem_singleton.mp hf]; exact hm _
  · simp only [List.mem_cons, List.not_mem_nil, or_false] at hf
    rcases hf with rfl | rfl | rfl
    · exact hm _
    · unfold Spec.halfTurn; ext <;> simp <;> ring
    · exact hm _
  · obtain ⟨k, -, rfl⟩ := List.mem_map.mp hf
    exact ht _
  · rcases List.mem_append.mp hf with hf | hf
    · obtain ⟨k, -, rfl⟩ := List.mem_map.mp hf
      exact hm _
    · obtain ⟨k, -, rfl⟩ := List.mem_map.mp hf
      exact ht _
  · cases hf

/-- A copy is not much further out than the dab and the centre. -/
theorem copy_near {trig : Trig K} (l : trig.Laws) {s : Symm.State K} (hc : |s.cx| ≤ 200000 ∧ |s.cy| ≤ 200000)
    {f : K × K → K × K} (hf : f ∈ Symm.copies trig s) {x y : K} (hx : |x| ≤ 210000) (hy : |y| ≤ 210000) :
    |(f (x, y)).1| ≤ 1100000 ∧ |(f (x, y)).2| ≤ 1100000 := by
  have h := copies_isometric l s f hf (x, y) (s.cx, s.cy)
  rw [copy_fixes trig s hf] at h
  generalize f (x, y) = q at h ⊢
  unfold Spec.dist2 at h
  dsimp only at h
  obtain ⟨a1, a2⟩ := abs_le.mp hc.1
  obtain ⟨a3, a4⟩ := abs_le.mp hc.2
  obtain ⟨b1, b2⟩ := abs_le.mp hx
  obtain ⟨b3, b4⟩ := abs_le.mp hy
  have d1 : (x - s.cx) * (x - s.cx) ≤ 410000 * 410000 := by nlinarith
  have d2 : (y - s.cy) * (y - s.cy) ≤ 410000 * 410000 := by nlinarith
  have e1 : |q.1 - s.cx| ≤ 820000 := abs_le_of_sq_le_sq (by nlinarith [mul_self_nonneg (q.2 - s.cy)]) (by norm_num)
  have e2 : |q.2 - s.cy| ≤ 820000 := abs_le_of_sq_le_sq (by nlinarith [mul_self_nonneg (q.1 - s.cx)]) (by norm_num)
  obtain ⟨f1, f2⟩ := abs_le.mp e1
  obtain ⟨f3, f4⟩ := abs_le.mp e2
  constructor <;> rw [abs_le] <;> constructor <;> linarith

/-- Drawing a dab, with its copies. -/
theorem drawDab_total {b : Build} {env : Env K} (he : env.Valid) {trig : Trig K} {g : Surf.Room} {y : Symmetries}
    (hy : y.Allowed trig g) {s : FSurf K} {c : Canvas} {a : Args K} (hs : Fit b env trig g y s c) (hd : Primed s)
    (ha : Reachable a) (hnear : y ≠ .off → |a.x| ≤ 210000 ∧ |a.y| ≤ 210000)
    (hg : ∀ op, prepare a = .ok (some op) → g.Allows b (tilesOf op))
    (hpl : ∀ x y θ op, prepare { a with x := x, y := y, angle := θ } = .ok (some op) → op.Plain) :
    (∃ m s' c', drawDab b env s a = .ok (m, s') ∧ Fit b env trig g y s' c' ∧ Primed s') ∨
      (g = .unsure ∧ drawDab b env s a = .error .assertFail) := by
  have hb := hs.sound.big
  rcases drawInternal_total he hs ⟨le_refl _, by omega⟩ ha (fun op ho => ⟨hg op ho, hpl a.x a.y a.angle op ho⟩) with
    ⟨m, s1, c1, h1, h2, h3, h4⟩ | ⟨hu, h1⟩
  · cases m with
    | false =>
      left
      refine ⟨false, { s1 with dirty := min s1.numB 0 }, c1, ?_, ?_, ?_⟩
      · unfold drawDab
        rw [h1]
        rfl
      · exact ⟨⟨h2.sound.stands, h2.sound.proper, h2.sound.cap, h2.sound.big, h2.sound.symm⟩, h2.queue, h2.cap, h2.off,
          h2.settings, h2.lines, h2.valid⟩
      · refine ⟨min_le_left _ _, ?_⟩
        show s1.symm.active = true → s1.symm.current.type = .snowflake → s1.symm.current.lines < s1.numB
        rw [h3, h4]
        exact hd.boxes
    | true =>
      have hpasses : ∃ ps used, passes s1.symm s1.numB a.x a.y a.angle = .ok (ps, used) ∧
          ((∀ t, g ≠ .spare t) ∨ ps = []) ∧
          ∀ p ∈ ps, (0 ≤ p.bbox ∧ p.bbox < s1.numB) ∧ Reachable { a with x := p.x, y := p.y, angle := p.angle } := by
        by_cases hc : s1.symm.active = true ∧ s1.symm.num ≠ 0
        · obtain ⟨l, hsp⟩ := hy (h2.off hc.1)
          obtain ⟨n1, n2⟩ := hnear (h2.off hc.1)
          obtain ⟨ps, used, k1, k2⟩ := passes_are_copies l h2.sound.symm hc.1 hc.2 s1.numB a.x a.y a.angle
          refine ⟨ps, used, k1, .inl hsp, fun p hp => ⟨?_, ?_⟩⟩
          · rcases h2.sound.symm.small with q | ⟨n, q⟩
            · have k := bbox_in_bounds_partial (by have := h2.sound.big; omega) q.1 (fun ht => .inl (by
                have := hd.boxes
                rw [← h3, ← h4] at this
                exact this hc.1 ht)) k1 p hp
              exact ⟨k.1, lt_of_lt_of_le k.2 (min_le_left _ _)⟩
            · exfalso
              unfold passes at k1
              rw [if_pos hc] at k1
              simp only [q] at k1
              have := congrArg Prod.fst (Except.ok.inj k1)
              dsimp only at this
              rw [← this] at hp
              cases hp
          · obtain ⟨f, hf, e⟩ : ∃ f ∈ Symm.copies trig s1.symm.current, (p.x, p.y) = f (a.x, a.y) := by
              clear k1
              generalize Symm.copies trig s1.symm.current = fs at k2 ⊢
              induction k2 with
              | nil => cases hp
              | cons q _ ih =>
                rcases List.mem_cons.mp hp with rfl | hp
                · exact ⟨_, List.mem_cons_self, q.1⟩
                · obtain ⟨f, hf, e⟩ := ih hp
                  exact ⟨f, List.mem_cons_of_mem _ hf, e⟩
            have hcen : |s1.symm.current.cx| ≤ 200000 ∧ |s1.symm.current.cy| ≤ 200000 := by
              have q := h2.settings.1
              have q' := h2.off hc.1
              cases y with
              | off => exact absurd rfl q'
              | few => exact q.1
              | any => exact q
            have k := copy_near l hcen hf n1 n2
            rw [← e] at k
            exact ⟨k.1, k.2, ha.radius0, ha.radius, ha.num⟩
        · refine ⟨[], 1, ?_, .inr rfl, by simp⟩
          unfold passes
          rw [if_neg hc]
      obtain ⟨ps, used, k1, k2, k3⟩ := hpasses
      have hfold : (∃ s' c', ps.foldlM (drawPass b env a) s1 = .ok s' ∧ Fit b env trig g y s' c' ∧ s'.symm = s1.symm ∧
          s'.numB = s1.numB) ∨ (g = .unsure ∧ ps.foldlM (drawPass b env a) s1 = .error .assertFail) := by
        rcases k2 with k2 | rfl
        · refine passFold_total he ps h2 k3 (fun x y θ op ho => ⟨?_, hpl x y θ op ho⟩)
          cases g with
          | spare t => exact absurd rfl (k2 t)
          | quiet => trivial
          | unsure => trivial
        · exact .inl ⟨s1, c1, rfl, h2, rfl, rfl⟩
      rcases hfold with ⟨s2, c2, j1, j2, j3, j4⟩ | ⟨hu, j1⟩
      · left
        refine ⟨true, { s2 with dirty := min s2.numB used }, c2, ?_, ?_, ?_⟩
        · unfold drawDab
          rw [h1]
          simp only [bind, Except.bind, pure, Except.pure, if_true]
          rw [k1]
          simp only [j1]
        · exact ⟨⟨j2.sound.stands, j2.sound.proper, j2.sound.cap, j2.sound.big, j2.sound.symm⟩, j2.queue, j2.cap, j2.off,
            j2.settings, j2.lines, j2.valid⟩
        · refine ⟨min_le_left _ _, ?_⟩
          show s2.symm.active = true → s2.symm.current.type = .snowflake → s2.symm.current.lines < s2.numB
          rw [j3, j4, h3, h4]
          exact hd.boxes
      · right
        refine ⟨hu, ?_⟩
        unfold drawDab
        rw [h1]
        simp only [bind, Except.bind, pure, Except.pure, if_true]
        rw [k1]
        simp only [j1]
  · right
    refine ⟨hu, ?_⟩
    unfold drawDab
    rw [h1]
    rfl

/-- `begin_atomic` never fails. -/
theorem beginAtomic_total {b : Build} {env : Env K} {trig : Trig K} {g : Surf.Room} {y : Symmetries} {s : FSurf K} {c : Canvas}
    (hs : Fit b env trig g y s c) (alloc balloc : Int → Bool) (hy : y = .any → ∀ n, balloc n = true) :
    ∃ s', beginAtomic trig alloc balloc s = .ok s' ∧ Fit b env trig g y s' c ∧ Primed s' := by
  obtain ⟨d, hd, hi, -, hact⟩ := update_inv trig alloc hs.sound.symm
  have hb := hs.sound.big
  have hl0 : d.current.lines ≤ 1048576 ∧ y.Fits d.current ∧ y.Fits d.pending := by
    rcases update_cases trig alloc hs.sound.symm with ⟨h, -⟩ | ⟨h, -⟩ | ⟨num, cap, cc, pc, h, -⟩ <;> rw [hd] at h <;>
      rw [Except.ok.inj h]
    · exact ⟨hs.lines, hs.settings⟩
    · exact ⟨hs.lines, hs.settings⟩
    · exact ⟨hs.sound.symm.pend.2, hs.settings.2, hs.settings.2⟩
  have key : ∃ s', beginAtomic trig alloc balloc s = .ok s' ∧ s'.boxCap = s'.numB := by
    unfold beginAtomic
    rw [hd]
    simp only [bind, Except.bind]
    unfold prepareBoxes
    have hl1 := hl0.1
    have hl : d.current.lines * (if d.current.type = .snowflake then 2 else 1) ≤ 2097152 := by
      split_ifs <;> omega
    dsimp only
    generalize (d.current.lines * if d.current.type = .snowflake then 2 else 1) = desired at *
    have hcap := hs.cap
    by_cases h2 : desired > s.numB
    · rw [if_pos h2]
      by_cases h3 : 0 ≤ toI32 ((desired + 10) * 16) ∧ balloc (toI32 ((desired + 10) * 16)) = true
      · rw [if_pos h3]
        have e : toI32 ((desired + 10) * 16) = (desired + 10) * 16 := by unfold toI32; omega
        rw [if_pos (by simp only; rw [e]; omega)]
        refine ⟨_, rfl, ?_⟩
        simp only
        rw [e]; omega
      · rw [if_neg h3, if_pos (by simp only; omega)]
        exact ⟨_, rfl, hcap⟩
    · rw [if_neg h2, if_pos (by simp only; omega)]
      exact ⟨_, rfl, hcap⟩
  obtain ⟨s', h1, h2⟩ := key
  obtain ⟨k1, k2, k3, k4⟩ := beginAtomic_sound h1 hs.sound
  rw [hd] at k4
  have e4 : s'.symm = d := (Except.ok.inj k4).symm
  refine ⟨s', h1, ⟨k1, ?_, h2, ?_, ?_, ?_, hs.valid⟩, ?_, ?_⟩
  · rw [k3]; exact hs.queue
  · rw [e4, hact]; exact hs.off
  · rw [e4]; exact hl0.2
  · rw [e4]; exact hl0.1
  · have := k1.big
    rw [k2]; omega
  · intro q1 q2
    have hb' := k1.big
    have hf : y.Fits s'.symm.current := by rw [e4]; exact hl0.2.1
    cases y with
    | off => exact absurd rfl (hs.off (by rw [← hact, ← e4]; exact q1))
    | few => have := hf.2 q2; omega
    | any =>
      rcases begin_boxes h1 hs.sound (hy rfl) with q | ⟨n, q⟩
      · unfold wanted at q
        rw [if_pos q2] at q
        rcases k1.symm.small with w | ⟨n, w⟩
        · have := w.1; omega
        · rw [w] at q2; cases q2
      · rw [q] at q2; cases q2

/-- `end_atomic` does not fail if its list of areas has room for one. Afterwards nothing is waiting or marked. -/
theorem endAtomic_total {b : Build} {env : Env K} {trig : Trig K} {g g' : Surf.Room} {y : Symmetries}
    {s : FSurf K} {c : Canvas} (hs : Fit b env trig g y s c) (hd : s.dirty ≤ s.numB) {order : List TileIndex → List TileIndex}
    (ho : ∀ l, (order l).Perm l) {roi : Option (Int × (Int → Rect))} (hr : ∀ n old, roi = some (n, old) → 1 ≤ n) :
    ∃ rs s', endAtomic env order roi s = .ok (rs, s') ∧ Fit b env trig g' y s' c ∧ s'.surf.canvas = c := by
  obtain ⟨st, hst, -⟩ := hs.queue
  obtain ⟨surf, st', h1, h2, h3, h4, h5⟩ := Surf.stands_end hst order ho
  have hfit : Fit b env trig g' y { s with surf := surf } c := by
    refine ⟨⟨⟨st', h2⟩, hs.sound.proper, hs.sound.cap, hs.sound.big, hs.sound.symm⟩, ⟨st', h2, ?_⟩, hs.cap, hs.off,
      hs.settings, hs.lines, hs.valid⟩
    cases g' with
    | quiet => exact fun t ht => absurd ht (h4 t)
    | spare t => exact h4 t
    | unsure => trivial
  unfold endAtomic
  rw [h1]
  simp only [bind, Except.bind, pure, Except.pure]
  cases roi with
  | none => exact ⟨_, _, rfl, hfit, h5⟩
  | some p =>
    obtain ⟨n, old⟩ := p
    obtain ⟨rs, e⟩ := outRects_in_bounds s.boxes (boxCap := s.boxCap) (n := n) (m := s.dirty) old (hr n old rfl)
      (by rw [hs.cap]; exact hd)
    simp only [e]
    exact ⟨_, _, rfl, hfit, h5⟩

theorem default_facts {trig : Trig K} {alloc : Int → Bool} {garbage : Int → Transform K} {d : Data K}
    (h : Symm.default trig alloc garbage = .ok d) : d.active = false ∧ d.current.lines ≤ 1048576 ∧
      ∀ y : Symmetries, y.Fits d.current ∧ y.Fits d.pending := by
  have hF : ∀ (y : Symmetries) (ty : SymType) (l : Int), ty ≠ .snowflake →
      y.Fits ({ type := ty, cx := 0, cy := 0, angle := 0, lines := l } : State K) := by
    intro y ty l hl
    cases y <;> simp [Symmetries.Fits, hl]
  unfold Symm.default at h
  simp only [allocate_eq alloc _ (show (0 : Int) ≤ 16 by omega) (show (16 : Int) ≤ 2097151 by omega)] at h
  have hp : Symm.Small ({ type := .vertical, cx := 0, cy := 0, angle := 0, lines := 2 } : State K) := by
    unfold Symm.Small; constructor <;> simp
  by_cases ha : alloc (16 * 36) = true
  · simp only [if_pos ha, if_true] at h
    rcases update_cases trig alloc (d :=
      { current := { type := .other (-1), cx := 0, cy := 0, angle := 0, lines := 0 }
        pending := { type := .vertical, cx := 0, cy := 0, angle := 0, lines := 2 }
        pendingChanges := true, active := false, num := 16, cap := 16, cells := garbage })
      ⟨by simp, by simp, ⟨by simp [count], by intro j a b; simp only [count] at b; omega⟩,
        by simp [count], .inr ⟨_, rfl⟩, hp⟩ with ⟨k, -⟩ | ⟨k, -⟩ | ⟨num, cap, c, pc, k, -⟩ <;>
    · rw [k] at h
      rw [← Except.ok.inj h]
      exact ⟨rfl, by norm_num, fun y => ⟨hF _ _ _ (by simp), hF _ _ _ (by simp)⟩⟩
  · simp only [if_neg ha, Bool.false_eq_true, if_false] at h
    rw [← Except.ok.inj h]
    exact ⟨rfl, by norm_num, fun y => ⟨hF _ _ _ (by simp), hF _ _ _ (by simp)⟩⟩

/-- A new surface. -/
theorem init_fit {b : Build} {env : Env K} {trig : Trig K} {alloc : Int → Bool} {garbage : Int → Transform K} {dirty : Int}
    {canvas : Canvas} {s : FSurf K} (h : init b trig alloc garbage dirty canvas = .ok s) (hc : CanvasValid canvas)
    (g : Surf.Room) (y : Symmetries) : Fit b env trig g y s canvas ∧ s.surf.canvas = canvas := by
  obtain ⟨d, h1, h2⟩ := default_inv trig alloc garbage
  obtain ⟨f1, f2, f3⟩ := default_facts h1
  obtain ⟨q, hq, hr, -⟩ := OpQueue.new_rel (β := Op K) b
  have e : s = ⟨⟨q, canvas⟩, d, fun _ => Rect.zero, 32, 32, dirty⟩ := by
    unfold init Surf.init at h
    simp only [h1, hq, bind, Except.bind, pure, Except.pure] at h
    exact (Except.ok.inj h).symm
  subst e
  have hst : Surf.Stands b (kind env) ⟨q, canvas⟩ Spec.OpQueue.init canvas :=
    ⟨hr, fun _ => rfl, fun t ht => absurd rfl ht⟩
  refine ⟨⟨⟨⟨_, hst⟩, fun i => .inl rfl, le_refl _, le_refl _, h2⟩, ⟨_, hst, ?_⟩, rfl,
    fun h => absurd h (by simp [f1]), f3 y, f2, hc⟩, rfl⟩
  cases g with
  | quiet => intro t ht; cases ht
  | spare t => intro ht; cases ht
  | unsure => trivial

end Verif.Full

namespace Verif.Painting
open Verif.Full Verif.Dab Verif.Engine Verif.Blend Verif.Map Verif.Mask Verif.Symm

section
variable {K R σ : Type} [Field K] [LinearOrder K] [IsStrictOrderedRing K] [FloorRing K]

/-- Sampling a colour does not fail on a valid picture. -/
theorem sample_total {b : Build} {env : Dab.Env K} (he : Sample.EnvOk env) {trig : Trig K} {g : Surf.Room} {sy : Symmetries}
    {s : FSurf K} {c : Canvas} (hg : g ≠ .quiet) (hs : Fit b env trig g sy s c) {x y r p : K} (hr : Sample.Reasonable x y r)
    {order : List TileIndex → List TileIndex} (ho : ∀ l, (order l).Perm l) (coin : TileIndex → Nat → Bool) :
    ∃ res s', Sample.getColor env s.surf x y r p order coin = .ok (res, s') ∧
      Fit b env trig g sy { s with surf := s' } c := by
  obtain ⟨st, hst, hh⟩ := hs.queue
  have key : ∃ res s', Sample.getColor env s.surf x y r p order coin = .ok (res, s') := by
    rcases lt_or_ge p 0 with q | q
    · obtain ⟨_, s', _, _, _, _, h⟩ := Sample.getColor_legacy he hr hst hs.valid q order ho coin
      exact ⟨_, s', h⟩
    · obtain ⟨_, res, s', _, _, _, h, _⟩ := Sample.getColor_average he hr hst hs.valid q order ho coin
      exact ⟨res, s', h⟩
  obtain ⟨res, s', h⟩ := key
  refine ⟨res, s', h, ?_⟩
  obtain ⟨ts, vs, hts⟩ := getColor_ok h
  obtain ⟨s2, st2, k1, k2, k3⟩ := Surf.stands_sample ts s.surf st c hst
  rw [hts] at k1
  have e2 : s' = s2 := congrArg Prod.snd (Except.ok.inj k1)
  subst e2
  refine ⟨⟨⟨st2, k2⟩, hs.sound.proper, hs.sound.cap, hs.sound.big, hs.sound.symm⟩, ⟨st2, k2, ?_⟩, hs.cap, hs.off,
    hs.settings, hs.lines, hs.valid⟩
  cases g with
  | quiet => exact absurd rfl hg
  | spare t => show ¬ st2.marked t; rw [k3]; exact hh
  | unsure => trivial

/-- The surface as the engine sees it is fine; or the one assertion failed that can. -/
def Fine' (b : Build) (env : Dab.Env K) (trig : Trig K) (g : Surf.Room) (sy : Symmetries) (w : World K) : Prop :=
  (∃ s c, w.surf = .ok s ∧ Fit b env trig g sy s c ∧ Primed s) ∨ (g = .unsure ∧ w.surf = .error .assertFail)

theorem draw_total {b : Build} {env : Dab.Env K} (he : env.Valid) {trig : Trig K} {g : Surf.Room} {sy : Symmetries}
    (hsy : sy.Allowed trig g) {w : World K} {a : Args K}
    (hw : Fine' b env trig g sy w) (ha : Reachable a) (hnear : sy ≠ .off → |a.x| ≤ 210000 ∧ |a.y| ≤ 210000)
    (hg : ∀ op, prepare a = .ok (some op) → g.Allows b (tilesOf op))
    (hpl : ∀ x y θ op, prepare { a with x := x, y := y, angle := θ } = .ok (some op) → op.Plain) :
    Fine' b env trig g sy (draw b env w a).2 := by
  unfold draw
  rcases hw with ⟨s, c, h1, h2, h3⟩ | ⟨hu, h1⟩
  · rw [h1]
    dsimp only
    rcases drawDab_total he hsy h2 h3 ha hnear hg hpl with ⟨m, s', c', e, f, d⟩ | ⟨hu, e⟩
    · rw [e]; exact .inl ⟨s', c', rfl, f, d⟩
    · rw [e]; exact .inr ⟨hu, rfl⟩
  · rw [h1]; exact .inr ⟨hu, h1⟩

theorem getColor_total {b : Build} {env : Dab.Env K} (he : Sample.EnvOk env) {trig : Trig K} {g : Surf.Room} {sy : Symmetries}
    {w : World K} {sch : Schedule} (hsch : ∀ n l, (sch.order n l).Perm l) (hg : g ≠ .quiet) (hw : Fine' b env trig g sy w) {x y : Int} {r p : K}
    (hr : Sample.Reasonable (x : K) (y : K) r) : Fine' b env trig g sy (getColor env sch w x y r p).2 := by
  unfold getColor
  rcases hw with ⟨s, c, h1, h2, h3⟩ | ⟨hu, h1⟩
  · rw [h1]
    dsimp only
    obtain ⟨res, s', e, f⟩ := sample_total he hg h2 hr (hsch w.samples) (sch.coin w.samples) (p := p)
    rw [e]; exact .inl ⟨_, c, rfl, f, h3.dirty, h3.boxes⟩
  · rw [h1]; exact .inr ⟨hu, h1⟩

/-- How far from the pen a dab of the brush can reach, in each direction: the radius, half the soft edge, the offset, the tracking
noise `N`, the random offset `B`, one pixel for snapping, and one pixel. -/
structure Spread (e : Engine.Env K R σ) (s : Load.Brush K) (N B d : K) : Prop where
  scatter : Scatter e s N B
  parts : ∃ r A o q, 0 ≤ A ∧ 0 ≤ o ∧ 0 ≤ q ∧ r + A / 2 + o + N + B + q + 1 ≤ d ∧ (∀ i, calculate (s sAntiAliasing) i ≤ A) ∧
    (1000 ≤ r ∨ ((∀ i, askedRadius e (calculate (s sRadiusLogarithmic) i) ≤ r) ∧
      ∀ i, calculate (s sRadiusByRandom) i = 0)) ∧
    (3240 ≤ o ∨ NoOffset s) ∧ (1 ≤ q ∨ ∀ i, calculate (s sSnapToPixel) i ≤ 0)
  snap : ∀ i, calculate (s sSnapToPixel) i ≤ 1
  small : d ≤ 10000

theorem Spread.bound {e : Engine.Env K R σ} {s : Load.Brush K} {N B d : K} (h : Spread e s N B d) : N + B ≤ 10000 := by
  obtain ⟨r, A, o, q, A0, o0, q0, hd, -, hr, -⟩ := h.parts
  have r0 : 0 ≤ r := by
    rcases hr with g | g
    · linarith
    · exact (askedRadius_pos _ _).le.trans (g.1 fun _ => 0)
  linarith [h.small]

/-- What snapping does to a radius, for a setting of at most 1. -/
theorem snap_grows {b : Brush K R} (h : b.vals sSnapToPixel ≤ 1) (x y : K) {r : K} (r0 : 0 < r) :
    0 < (snap b x y r).2.2 ∧ (snap b x y r).2.2 ≤ r + 1 / 2 := by
  unfold snap
  dsimp only
  by_cases q : b.vals sSnapToPixel > 0
  swap
  · rw [if_neg q]
    exact ⟨r0, by dsimp only; linarith⟩
  rw [if_pos q]
  dsimp only
  obtain ⟨n, hn⟩ : ∃ n : K, n = (roundHalf (r * 2) : K) / 2 := ⟨_, rfl⟩
  have n1 : n ≤ r + 1 / 4 := by
    have : (roundHalf (r * 2) : K) ≤ r * 2 + 1 / 2 := by
      unfold roundHalf
      rw [if_pos (by linarith)]
      exact Int.floor_le _
    rw [hn]; linarith
  rw [← hn]
  obtain ⟨m, hm⟩ : ∃ m : K, m = if n < 1 / 2 then 1 / 2 else n := ⟨_, rfl⟩
  rw [← hm]
  have m1 : 1 / 2 ≤ m ∧ m ≤ r + 1 / 2 := by
    rw [hm]; split_ifs with g
    · constructor <;> linarith
    · exact ⟨not_lt.mp g, by linarith⟩
  obtain ⟨k, hk⟩ : ∃ k : K, k = if b.vals sSnapToPixel > 9999 / 10000 then m - 1 / 10000 else m := ⟨_, rfl⟩
  rw [← hk]
  have k1 : 1 / 4 ≤ k ∧ k ≤ r + 1 / 2 := by
    rw [hk]; split_ifs
    · constructor <;> linarith [m1.1, m1.2]
    · constructor <;> linarith [m1.1, m1.2]
  generalize b.vals sSnapToPixel = t at h q
  have e1 : r + (k - r) * t = r * (1 - t) + k * t := by ring
  have a1 := mul_nonneg r0.le (sub_nonneg.mpr h)
  have a2 := mul_le_mul_of_nonneg_right k1.1 q.le
  have a3 := mul_le_mul_of_nonneg_right k1.2 q.le
  refine ⟨?_, ?_⟩
  · rw [e1]
    have : 0 < 1 / 4 * t := mul_pos (by norm_num) q
    linarith
  · rw [e1]
    have : (r + 1 / 2) * t = r * t + 1 / 2 * t := by ring
    have : r * (1 - t) = r - r * t := by ring
    linarith

/-- What the dabs of a brush are like. -/
structure DabNear (C : K → K → Prop) (s : Load.Brush K) (d : K) (a : Args K) : Prop where
  near : ∃ px py, C px py ∧ |a.x - px| + a.radius + 1 ≤ d ∧ |a.y - py| + a.radius + 1 ≤ d
  radius : 0 < a.radius
  passed : PassedOn s a
  num : ∃ i, a.posterizeNum = calculate (s sPosterizeNum) i

theorem askedRadius_le (e : Engine.Env K R σ) (v : K) : askedRadius e v ≤ 1000 :=
  max_le (by norm_num) (min_le_left _ _)

theorem dabRadius_le {e : Engine.Env K R σ} {b b' : Brush K R} {o r : K} (hb : Shaped e b) (hv : b'.vals = b.vals)
    (hr : b'.st.actualRadius = b.st.actualRadius) (h : 1000 ≤ r ∨
      ((∀ i, askedRadius e (calculate (b.settings sRadiusLogarithmic) i) ≤ r) ∧
        ∀ i, calculate (b.settings sRadiusByRandom) i = 0)) :
    0 < (dabRadius e b' o).1 ∧ (dabRadius e b' o).1 ≤ r := by
  obtain ⟨i, h1, h2, -⟩ := hb
  unfold dabRadius
  dsimp only
  by_cases q : b'.vals sRadiusByRandom ≠ 0
  · rw [if_pos q]
    have k := clampK_ge (a := e.exp (b'.vals sRadiusLogarithmic + (e.gauss b'.rng).1 * b'.vals sRadiusByRandom))
      (lo := (1 / 5 : K)) (hi := 1000) (by norm_num)
    refine ⟨lt_of_lt_of_le (by norm_num) k.1, ?_⟩
    rcases h with h | h
    · exact k.2.trans h
    · exfalso; apply q; rw [hv, h1]; exact h.2 i
  · rw [if_neg q]
    simp only
    rw [hr, h2]
    refine ⟨askedRadius_pos _ _, ?_⟩
    rcases h with h | h
    · exact (askedRadius_le _ _).trans h
    · exact h.1 i

/-- The dab that `prepare_and_draw_dab` asks for. -/
theorem dabArgs_near {e : Engine.Env K R σ} {C : K → K → Prop} {b : Brush K R} {N B d : K} (hsp : Spread e b.settings N B d)
    (hin : BrushIn (Widened C N) b) (hsh : Shaped e b) {o : K} {pos : K × K × Brush K R}
    (hpos : dabPosition e b = .ok pos) {b' : Brush K R} (hf : Frame b b') (lin : Bool) (op t : K) (c : Spectral.Rgb K) :
    DabNear C b.settings d (dabArgs e b' lin pos.1 pos.2.1 (dabRadius e pos.2.2 o).1 op t c) := by
  obtain ⟨i, hv, -⟩ := id hsh
  have kv : ∀ id, b'.vals id = calculate (b.settings id) i := by intro id; rw [hf.vals, hv]
  obtain ⟨r, A, off, q, A0, o0, q0, hd, hA, hr, ho, hq⟩ := hsp.parts
  have kp : pos.2.2.vals = b.vals := (dabPosition_frame hpos).vals
  have kr : pos.2.2.st.actualRadius = b.st.actualRadius := by rw [(dabPosition_frame hpos).st]
  obtain ⟨r0, r1⟩ := dabRadius_le (o := o) hsh kp kr hr
  have hh0 : 0 ≤ clampK (b'.vals sHardness) 0 1 ∧ clampK (b'.vals sHardness) 0 1 ≤ 1 := clampK_ge zero_le_one
  have hr2 := antiAlias_range (b := b') (A := A) hh0.1 hh0.2 r0 (by rw [kv]; exact hA i) A0
  obtain ⟨R', hR'⟩ : ∃ R', R' = (antiAlias b' (clampK (b'.vals sHardness) 0 1) (dabRadius e pos.2.2 o).1).2 := ⟨_, rfl⟩
  rw [← hR'] at hr2
  have ex : (dabArgs e b' lin pos.1 pos.2.1 (dabRadius e pos.2.2 o).1 op t c).x = (snap b' pos.1 pos.2.1 R').1 := by
    rw [hR']; rfl
  have ey : (dabArgs e b' lin pos.1 pos.2.1 (dabRadius e pos.2.2 o).1 op t c).y = (snap b' pos.1 pos.2.1 R').2.1 := by
    rw [hR']; rfl
  have er : (dabArgs e b' lin pos.1 pos.2.1 (dabRadius e pos.2.2 o).1 op t c).radius = (snap b' pos.1 pos.2.1 R').2.2 := by
    rw [hR']; rfl
  have hs1 : b'.vals sSnapToPixel ≤ 1 := by rw [kv]; exact hsp.snap i
  have grow := snap_grows hs1 pos.1 pos.2.1 hr2.2.1
  have move := snap_moves hs1 pos.1 pos.2.1 R'
  have both : |(snap b' pos.1 pos.2.1 R').1 - pos.1| + (snap b' pos.1 pos.2.1 R').2.2 ≤ R' + q ∧
      |(snap b' pos.1 pos.2.1 R').2.1 - pos.2.1| + (snap b' pos.1 pos.2.1 R').2.2 ≤ R' + q := by
    rcases hq with hq | hq
    · constructor <;> linarith [grow.2, move.1, move.2]
    · have es : snap b' pos.1 pos.2.1 R' = (pos.1, pos.2.1, R') := by
        unfold snap
        dsimp only
        rw [kv]
        exact if_neg (not_lt.mpr (hq i))
      rw [es]
      simp only [sub_self, abs_zero, zero_add]
      constructor <;> linarith
  refine ⟨?_, ?_, ⟨i, kv _, kv _, kv _, kv _, kv _, ?_⟩, i, kv _⟩
  · rw [ex, ey, er]
    obtain ⟨ux, uy, ⟨px, py, h1, w1, w2⟩, h2, h3, h4⟩ := dabPosition_around hv hsp.scatter hin hpos
    refine ⟨px, py, h1, ?_⟩
    have hoff : |pos.1 - ux| ≤ off + B ∧ |pos.2.1 - uy| ≤ off + B := by
      rcases ho with ho | ho
      · exact ⟨by linarith, by linarith⟩
      · obtain ⟨e1, e2⟩ := h4 ho
        exact ⟨by linarith, by linarith⟩
    have tri : ∀ {u v w x : K}, |u - x| ≤ |u - v| + (|v - w| + |w - x|) := by
      intro u v w x
      rw [show u - x = (u - v) + ((v - w) + (w - x)) by ring]
      exact (abs_add_le _ _).trans (by linarith [abs_add_le (v - w) (w - x)])
    have t1 := tri (u := (snap b' pos.1 pos.2.1 R').1) (v := pos.1) (w := ux) (x := px)
    have t2 := tri (u := (snap b' pos.1 pos.2.1 R').2.1) (v := pos.2.1) (w := uy) (x := py)
    constructor <;> linarith [hr2.2.2, hoff.1, hoff.2, both.1, both.2]
  · rw [er]; exact grow.1
  · show clampK (b'.vals sSoftness) 0 1 = _
    rw [kv]

/-- Where and how large the brush samples. -/
theorem smudgeStage_asks {e : Engine.Env K R σ} {b : Brush K R} {surf : σ} {x y r : K} {sm : Bool × Brush K R × σ}
    (h : smudgeStage e b surf x y r = .ok sm) :
    sm.2.2 = surf ∨ ((b.vals sSmudgeLength < 1 ∧ (b.vals sSmudge ≠ 0 ∨ isConstant (b.settings sSmudge) = false)) ∧
      ∃ px py r' p, toInt (x + 1 / 2) = .ok px ∧ toInt (y + 1 / 2) = .ok py ∧ r' ≤ 1000 ∧
        sm.2.2 = (e.getColor surf px py r' p).2) := by
  unfold smudgeStage at h
  by_cases hc : b.vals sSmudgeLength < 1 ∧ (b.vals sSmudge ≠ 0 ∨ isConstant (b.settings sSmudge) = false)
  · rw [if_pos hc] at h
    dsimp only at h
    obtain ⟨v, -, h⟩ := bind_ok h
    obtain ⟨px, hx, h⟩ := bind_ok h
    obtain ⟨py, hy, h⟩ := bind_ok h
    obtain ⟨b2, -, h⟩ := bind_ok h
    rw [← Except.ok.inj h]
    show (updateSmudge e (fetchSmudge b).2 surf v px py r).2.2.1 = surf ∨ _
    have key : (updateSmudge e (fetchSmudge b).2 surf v px py r).2.2.1 = surf ∨
        ∃ r' p, r' ≤ 1000 ∧ (updateSmudge e (fetchSmudge b).2 surf v px py r).2.2.1 = (e.getColor surf px py r' p).2 := by
      unfold updateSmudge
      dsimp only
      split_ifs
      all_goals first
        | exact .inl rfl
        | exact .inr ⟨_, _, (clampK_ge (by norm_num)).2, rfl⟩
    rcases key with q | ⟨r', p, q1, q2⟩
    · exact .inl q
    · exact .inr ⟨hc, px, py, r', p, hx, hy, q1, q2⟩
  · rw [if_neg hc] at h
    rw [← Except.ok.inj h]; exact .inl rfl

theorem toInt_bound {v : K} {n : Int} (h : toInt v = .ok n) (hv : |v| ≤ 2000000) : |(n : K)| ≤ 68719476736 - 2 := by
  obtain ⟨h1, h2⟩ := abs_le.mp hv
  have a1 : (-2000000 : Int) ≤ ⌊v⌋ := Int.le_floor.mpr (by push_cast; linarith)
  have a2 : ⌈v⌉ ≤ (2000000 : Int) := Int.ceil_le.mpr (by push_cast; linarith)
  have a3 : ⌊v⌋ ≤ ⌈v⌉ := Int.floor_le_ceil v
  have hn : -2000000 ≤ n ∧ n ≤ 2000000 := by
    unfold toInt at h
    dsimp only at h
    generalize ⌊v⌋ = f at *
    generalize ⌈v⌉ = g at *
    split_ifs at h <;> cases h <;> constructor <;> omega
  have c1 : ((-2000000 : Int) : K) ≤ n := Int.cast_le.mpr hn.1
  have c2 : (n : K) ≤ ((2000000 : Int) : K) := Int.cast_le.mpr hn.2
  push_cast at c1 c2
  rw [abs_le]
  constructor <;> linarith

/-- A tile out of the brush's reach. -/
def Apart (C : K → K → Prop) (d : K) (t : TileIndex) : Prop :=
  ∀ px py, C px py → px + d < 64 * t.x ∨ 64 * t.x + 64 ≤ px - d ∨ py + d < 64 * t.y ∨ 64 * t.y + 64 ≤ py - d

/-- The reason why the list of marked tiles does not overflow, as far as the brush and the pen are concerned. -/
def Reason (b : Build) (C : K → K → Prop) (s : Load.Brush K) (d : K) : Surf.Room → Prop
  | .quiet => NeverSamples s
  | .spare t => Spec.TileMap.InBox b.initSize t ∧ Apart C d t
  | .unsure => True

theorem near_reachable {C : K → K → Prop} (hC : ∀ x y, C x y → |x| ≤ 1000000 ∧ |y| ≤ 1000000) {s : Load.Brush K} {d : K}
    (hd : d ≤ 10000) (hn : ∀ i, |calculate (s sPosterizeNum) i| ≤ 10000000) {a : Args K} (ha : DabNear C s d a) :
    Reachable a := by
  obtain ⟨px, py, h1, h2, h3⟩ := ha.near
  obtain ⟨i, hi⟩ := ha.num
  obtain ⟨c1, c2⟩ := hC px py h1
  have r0 := ha.radius
  have n1 := abs_nonneg (a.x - px)
  refine ⟨?_, ?_, r0.le, by linarith, by rw [hi]; exact hn i⟩
  · have := abs_add_le (a.x - px) px
    rw [sub_add_cancel] at this
    linarith
  · have := abs_add_le (a.y - py) py
    rw [sub_add_cancel] at this
    linarith

theorem near_close {C : K → K → Prop} (hC : ∀ x y, C x y → |x| ≤ 200000 ∧ |y| ≤ 200000) {s : Load.Brush K} {d : K}
    (hd : d ≤ 10000) {a : Args K} (ha : DabNear C s d a) : |a.x| ≤ 210000 ∧ |a.y| ≤ 210000 := by
  obtain ⟨px, py, h1, h2, h3⟩ := ha.near
  obtain ⟨c1, c2⟩ := hC px py h1
  have r0 := ha.radius
  have t1 := abs_add_le (a.x - px) px
  have t2 := abs_add_le (a.y - py) py
  rw [sub_add_cancel] at t1 t2
  exact ⟨by linarith, by linarith⟩

theorem near_allows {b : Build} {C : K → K → Prop} {s : Load.Brush K} {d : K} {g : Surf.Room} (hg : Reason b C s d g)
    {a : Args K} (ha : DabNear C s d a) {op : Op K} (hop : prepare a = .ok (some op)) : g.Allows b (tilesOf op) := by
  cases g with
  | quiet => trivial
  | unsure => trivial
  | spare t =>
    refine ⟨hg.1, fun ht => ?_⟩
    obtain ⟨e1, e2, e3, -⟩ := prepare_some hop
    obtain ⟨px, py, h1, h2, h3⟩ := ha.near
    rw [mem_tilesOf, e1, e2, e3] at ht
    obtain ⟨⟨t1, t2⟩, t3, t4⟩ := ht
    have lo : ∀ {v : K} {n : Int}, tileLo v a.radius ≤ n → v - (a.radius + 1) < 64 * n + 64 := by
      intro v n h
      unfold tileLo at h
      have : ⌊v - (a.radius + 1)⌋ < 64 * n + 64 := by omega
      have := Int.floor_lt.mp this
      push_cast at this
      exact this
    have hi : ∀ {v : K} {n : Int}, n ≤ tileHi v a.radius → 64 * (n : K) ≤ v + (a.radius + 1) := by
      intro v n h
      unfold tileHi at h
      have : 64 * n ≤ ⌊v + (a.radius + 1)⌋ := by omega
      have := Int.le_floor.mp this
      push_cast at this
      exact this
    have l1 := lo t1
    have l2 := hi t2
    have l3 := lo t3
    have l4 := hi t4
    obtain ⟨a1, a2⟩ := abs_le.mp (show |a.x - px| ≤ d - a.radius - 1 by linarith)
    obtain ⟨a3, a4⟩ := abs_le.mp (show |a.y - py| ≤ d - a.radius - 1 by linarith)
    rcases hg.2 px py h1 with q | q | q | q <;> linarith

theorem Engine.Invariant.fresh {e : Engine.Env K R σ} {E : Engine.Event K → Prop} {T : K → K → Prop}
    {I J : Brush K R → σ → Prop} (H : Invariant e E T I J) (N : Brush K R → Prop)
    (hN : ∀ b b' st, update e b st = .ok b' → N b') : Invariant e E T I (fun b s => J b s ∧ N b) where
  skip := H.skip
  pull := H.pull
  target := H.target
  start := H.start
  count := H.count
  step b s ev x y d f t b' he hT h1 h2 h3 h4 h hu := ⟨H.step b s ev x y d f t b' he hT h1 h2 h3 h4 h hu, hN _ _ _ hu⟩
  draw b s lin p h hp := H.draw b s lin p h.1 hp
  finish b s n total idle h := H.finish b s n total idle h.1

/-- The brush stays in the region and the surface stays fine. -/
theorem total_invariant {e : Engine.Env K R σ} (hdec : Decays e) {b : Build} {env : Dab.Env K} (he : Sample.EnvOk env)
    {trig : Trig K} {sch : Schedule} (hsch : ∀ n l, (sch.order n l).Perm l) {C : K → K → Prop} (hC : Engine.Convex C)
    (hCb : ∀ x y, C x y → |x| ≤ 1000000 ∧ |y| ≤ 1000000) {s0 : Load.Brush K} {N B d : K} (hsp : Spread e s0 N B d)
    (hm : PlainModes s0) (hn : ∀ i, |calculate (s0 sPosterizeNum) i| ≤ 10000000) {g : Surf.Room} (hg : Reason b C s0 d g)
    {sy : Symmetries} (hsy : sy.Allowed trig g) (hCs : sy ≠ .off → ∀ x y, C x y → |x| ≤ 200000 ∧ |y| ≤ 200000) :
    Invariant (onTiles e b env sch) (fun ev => C ev.x ev.y) (Widened C N)
      (fun br w => (Scatter (onTiles e b env sch) br.settings N B ∧ BrushIn (Widened C N) br) ∧ br.settings = s0 ∧
        Fine' b env trig g sy w)
      (fun br w => (((Scatter (onTiles e b env sch) br.settings N B ∧ BrushIn (Widened C N) br) ∧ ∃ i, br.vals = fun id => calculate (br.settings id) i) ∧
        Shaped (onTiles e b env sch) br) ∧ br.settings = s0 ∧ Fine' b env trig g sy w) := by
  refine Invariant.also (Engine.Invariant.fresh (around_invariant hC (onTiles e b env sch) hdec N B) (Shaped (onTiles e b env sch))
    (fun b b' st hu => update_shaped hu)) (fun s w => s = s0 ∧ Fine' b env trig g sy w) ?_
  rintro br w lin p ⟨⟨⟨hsc, hin⟩, -⟩, hsh⟩ ⟨hs, hw⟩ hp
  refine ⟨hs, ?_⟩
  have hsp' : Spread (onTiles e b env sch) br.settings N B d := by
    rw [hs]
    exact ⟨⟨hsp.scatter.room, hsp.scatter.noise, hsp.scatter.speed, hsp.scatter.random⟩, hsp.parts, hsp.snap, hsp.small⟩
  obtain ⟨o, pos, sm, -, hpos, hsm, hfr, hres⟩ := drawDab_cases hp
  have hin' : BrushIn (Widened C N) ({ br with st := { br.st with flip := br.st.flip * -1 } } : Brush K R) := ⟨hin.1, hin.2⟩
  obtain ⟨i, hv, h2, h3⟩ := id hsh
  have hsh' : Shaped (onTiles e b env sch) ({ br with st := { br.st with flip := br.st.flip * -1 } } : Brush K R) :=
    ⟨i, hv, h2, h3⟩
  -- sampling
  have hw1 : Fine' b env trig g sy sm.2.2 := by
    rcases smudgeStage_asks hsm with q | ⟨hask, px, py, r', pp, hx, hy, hr, q⟩
    · rw [q]; exact hw
    · rw [q]
      have kf : (dabRadius (onTiles e b env sch) pos.2.2 o).2.2.vals = br.vals :=
        ((dabPosition_frame hpos).trans (dabRadius_frame (onTiles e b env sch) pos.2.2 o)).vals
      have ks : (dabRadius (onTiles e b env sch) pos.2.2 o).2.2.settings = br.settings :=
        ((dabPosition_frame hpos).trans (dabRadius_frame (onTiles e b env sch) pos.2.2 o)).settings
      have hq : g ≠ .quiet := by
        rintro rfl
        rw [kf, ks, hv] at hask
        exact (show NeverSamples br.settings by rw [hs]; exact hg) i hask
      obtain ⟨vx, vy, ⟨ux, uy, h1, w1, w2⟩, h4, h5, -⟩ := dabPosition_around (C := Widened C N) (b := { br with st := { br.st with flip := br.st.flip * -1 } })
        hv hsc hin' hpos
      obtain ⟨c1, c2⟩ := hCb ux uy h1
      have hNB := hsp.bound
      have bd : ∀ {u w v : K}, |u| ≤ 1000000 → |w - u| ≤ N → |v - w| ≤ 3240 + B → |v + 1 / 2| ≤ 2000000 := by
        intro u w v hu hw hv
        obtain ⟨u1, u2⟩ := abs_le.mp hu
        obtain ⟨w1, w2⟩ := abs_le.mp hw
        obtain ⟨v1, v2⟩ := abs_le.mp hv
        rw [abs_le]
        constructor <;> linarith
      exact getColor_total he hsch hq hw ⟨⟨toInt_bound hx (bd c1 w1 h4), toInt_bound hy (bd c2 w2 h5)⟩, by linarith⟩
  rcases hres with ⟨-, hres⟩ | ⟨-, col, -, hf2, hres⟩
  · rw [hres]; exact hw1
  · rw [hres]
    have hnear := dabArgs_near (e := onTiles e b env sch) (C := C) (b := { br with st := { br.st with flip := br.st.flip * -1 } })
      (d := d) (o := o) hsp' hin' hsh' hpos hf2 lin (dabRadius (onTiles e b env sch) pos.2.2 o).2.1 col.1 col.2.1
    have hs2 : ({ br with st := { br.st with flip := br.st.flip * -1 } } : Brush K R).settings = s0 := hs
    rw [hs2] at hnear
    refine draw_total he.valid hsy hw1 (near_reachable hCb hsp.small hn hnear) (fun q => ?_)
      (fun op hop => near_allows hg hnear hop) (fun x y θ op hop => moved_plain hm hnear.passed hop)
    exact near_close (hCs q) hsp.small hnear

/-- A session settles: with enough steps it ends, always in the same way. -/
theorem session_settles {e : Engine.Env K R σ} (L : Laws e) (he : Decays e) {b : Brush K R} {M ρ : K}
    (hd : BoundedDynamics b.settings M ρ) (hb : Ready b M ρ) {N B : K} (hNB : N + B ≤ 10 ^ 8) (hs : Scatter e b.settings N B)
    (h0 : BrushIn (Widened Desk N) b)
    (hl : 0 ≤ (b.settings sOpaqueLinearize).base) (surf : σ) (ms : List (Motion K))
    (h : ∀ m ∈ ms, m.x.Sensible ∧ m.y.Sensible ∧ m.xtilt ≠ .nan ∧ m.ytilt ≠ .nan ∧ 0 < m.viewzoom) :
    ∃ n r, (∀ k, n ≤ k → strokes e k b surf ms = .ok r) ∧ Ready r.1 M ρ ∧ r.1.settings = b.settings := by
  induction ms generalizing b surf with
  | nil => exact ⟨0, _, fun k _ => rfl, hb, rfl⟩
  | cons m ms ih =>
    obtain ⟨n0, hn, h0'⟩ := stroke_to_terminates L hd hb surf m
    obtain ⟨n1, h1⟩ := smudging_session_survives L he hd hb hNB hs h0 hl surf [m] (fun m' hm => h m' (by
      rw [List.mem_singleton.mp hm]; exact List.mem_cons_self ..))
    obtain ⟨r, hr⟩ : ∃ r, strokeTo e n0 b surf m = .ok r := by
      obtain ⟨r, hr⟩ := h1 (max n0 n1) (le_max_right _ _)
      change (strokeTo e (max n0 n1) b surf m >>= _) = _ at hr
      rw [h0' _ (le_max_left _ _)] at hr
      obtain ⟨r1, h, -⟩ := bind_ok hr
      exact ⟨r1, h⟩
    obtain ⟨rb, rs⟩ := strokeTo_ready hd hb hr
    have k := stays_on_desk he ⟨hb.pending, hb.skipped⟩ hs h0 (fuel := n0) (surf := surf) (ms := [m]) (r := (r.2.1, r.2.2)) (by
      show (strokeTo e n0 b surf m >>= _) = _
      rw [ok_bind hr]
      rfl)
    obtain ⟨n2, r2, h2, h3, h4⟩ := ih (rs ▸ hd) rb (rs ▸ hs) k.1 (rs ▸ hl) r.2.2 (fun m hm => h m (List.mem_cons_of_mem _ hm))
    refine ⟨max n0 n2, r2, fun k hk => ?_, h3, h4.trans rs⟩
    have e0 : strokeTo e k b surf m = .ok r := by
      rw [h0' k (le_trans (le_max_left _ _) hk), hr]
    show (strokeTo e k b surf m >>= _) = _
    rw [ok_bind e0]
    exact h2 k (le_trans (le_max_right _ _) hk)

/-! ### What is asked of the brush, the pen and the blocks -/

/-- A brush whose dabs are bounded in number, in size and in their distance from the pen, and that neither colorizes nor
posterizes nor mixes pigments under locked alpha. -/
structure Tame (e : Engine.Env K R σ) (s : Load.Brush K) (M ρ N B d : K) : Prop where
  dynamics : BoundedDynamics s M ρ
  spread : Spread e s N B d
  modes : PlainModes s
  levels : ∀ i, |calculate (s sPosterizeNum) i| ≤ 10000000
  linearize : 0 ≤ (s sOpaqueLinearize).base

/-- A block of an application that does not use symmetry; or a block that sets, if anything, a symmetry with its centre
not too far out, and either snowflakes have fewer than 32 lines or the memory for the list of changed areas is granted. -/
def Follows : Symmetries → Block K → Prop
  | .off, bl => bl.symmetry = none
  | .few, bl => ∀ active cx cy angle type lines, bl.symmetry = some (active, cx, cy, angle, type, lines) →
      (|cx| ≤ 200000 ∧ |cy| ≤ 200000) ∧ (type = .snowflake → lines < 32)
  | .any, bl => (∀ active cx cy angle type lines, bl.symmetry = some (active, cx, cy, angle, type, lines) →
      |cx| ≤ 200000 ∧ |cy| ≤ 200000) ∧ ∀ n, bl.balloc n = true

/-- A block of an application that uses symmetry as stated, has at least one rectangle in its list of changed areas if
there is one, and passes on positions within the region, tilts that are numbers and a zoom factor above zero. -/
structure Orderly (sy : Symmetries) (C : K → K → Prop) (bl : Block K) : Prop where
  ok : bl.Ok
  symmetry : Follows sy bl
  room : ∀ n old, bl.roi = some (n, old) → 1 ≤ n
  place : ∀ m ∈ bl.motions, ∀ x y, Place m x y → C x y
  sensible : ∀ m ∈ bl.motions, m.x.Sensible ∧ m.y.Sensible ∧ m.xtilt ≠ .nan ∧ m.ytilt ≠ .nan ∧ 0 < m.viewzoom

theorem setUp_fit {b : Build} {env : Dab.Env K} {trig : Trig K} {g : Surf.Room} {sy : Symmetries} {s : FSurf K} {c : Canvas}
    (hs : Fit b env trig g sy s c) {bl : Block K} (hok : bl.Ok) (hf : Follows sy bl) : Fit b env trig g sy (bl.setUp s) c := by
  have hk := setUp_sound hok hs.sound
  cases h : bl.symmetry with
  | none =>
    have e : bl.setUp s = s := by unfold Block.setUp; rw [h]
    rw [e]; exact hs
  | some p =>
    obtain ⟨active, cx, cy, angle, type, lines⟩ := p
    have e : bl.setUp s = { s with symm := Symm.setPending s.symm active cx cy angle type lines } := by
      unfold Block.setUp; rw [h]
    rw [e] at hk ⊢
    refine ⟨hk, hs.queue, hs.cap, fun _ => ?_, ⟨hs.settings.1, ?_⟩, hs.lines, hs.valid⟩
    · rintro rfl
      have : bl.symmetry = none := hf
      rw [h] at this
      cases this
    · have hp := hk.symm.pend
      cases sy with
      | off => trivial
      | few =>
        obtain ⟨q1, q2⟩ := hf _ _ _ _ _ _ h
        refine ⟨q1, fun ht => ?_⟩
        have := q2 ht
        show f32 (max 2 lines) < 32
        rw [f32_id (by omega) (by omega)]
        omega
      | any => exact hf.1 _ _ _ _ _ _ h

/-- Between blocks. -/
structure Poised (b : Build) (env : Dab.Env K) (trig : Trig K) (C : K → K → Prop) (M ρ N : K) (g : Surf.Room)
    (sy : Symmetries) (s : Studio K R) : Prop where
  brush : Ready s.brush M ρ
  place : BrushIn (Widened C N) s.brush
  surf : Fit b env trig g sy s.surf s.surf.surf.canvas

theorem block_total {e : Engine.Env K R σ} (L : Laws e) (hdec : Decays e) {b : Build} {env : Dab.Env K}
    (he : Sample.EnvOk env) {trig : Trig K} {sch : Schedule} (hsch : ∀ n l, (sch.order n l).Perm l) {C : K → K → Prop}
    (hC : Engine.Convex C) (hCb : ∀ x y, C x y → |x| ≤ 1000000 ∧ |y| ≤ 1000000) {M ρ N B d : K} {g : Surf.Room}
    {sy : Symmetries} (hsy : sy.Allowed trig g) (hCs : sy ≠ .off → ∀ x y, C x y → |x| ≤ 200000 ∧ |y| ≤ 200000)
    {s : Studio K R} (hs : Poised b env trig C M ρ N g sy s) (ht : Tame e s.brush.settings M ρ N B d)
    (hg : Reason b C s.brush.settings d g) {bl : Block K} (hbl : Orderly sy C bl) :
    ∃ n, (∃ t, (∀ k, n ≤ k → block e b env trig sch k s bl = .ok t) ∧ Poised b env trig C M ρ N g sy t.2 ∧
        t.2.brush.settings = s.brush.settings) ∨
      (g = .unsure ∧ ∀ k, n ≤ k → block e b env trig sch k s bl = .error .assertFail) := by
  obtain ⟨s1, k1, k2, k3⟩ := beginAtomic_total (setUp_fit hs.surf hbl.ok hbl.symmetry) bl.alloc bl.balloc
    (fun q => by subst q; exact hbl.symmetry.2)
  have hdesk : ∀ x y, C x y → Desk x y := fun x y h => by
    obtain ⟨h1, h2⟩ := hCb x y h
    exact ⟨lt_of_le_of_lt h1 (by norm_num), lt_of_le_of_lt h2 (by norm_num)⟩
  have L' : Laws (onTiles e b env sch) := 
    ⟨L.exp_pos, L.sqrt_nonneg, L.sqrt_sq, L.trig, L.atan2_range, L.next_range, L.pow_range⟩
  have hwide : ∀ x y, Widened C N x y → Widened Desk N x y := fun x y ⟨px, py, h1, h2, h3⟩ => ⟨px, py, hdesk _ _ h1, h2, h3⟩
  have hsc : Scatter (onTiles e b env sch) s.brush.settings N B :=
    ⟨ht.spread.scatter.room, ht.spread.scatter.noise, ht.spread.scatter.speed, ht.spread.scatter.random⟩
  obtain ⟨n, r, h1, h2, h3⟩ := session_settles L' hdec ht.dynamics hs.brush (ht.spread.bound.trans (by norm_num)) hsc
    ⟨hwide _ _ hs.place.1, hwide _ _ hs.place.2⟩ ht.linearize ⟨.ok s1, s.samples⟩ bl.motions hbl.sensible
  have H := (total_invariant hdec (b := b) he (trig := trig) hsch hC hCb ht.spread ht.modes ht.levels hg hsy hCs).events
    (E' := fun ev => C ev.x ev.y ∧ |ev.x| < 10 ^ 8 ∧ |ev.y| < 10 ^ 8) (fun _ h => h.1)
  have q := (session_keeps H (fun m => ∀ x y, Place m x y → C x y)
    (fun m ev hm hev => ⟨hm _ _ (sanitise_place hev), sanitise_bound hev⟩)
    (fun ev i he hi => by
      have q := workaround_place he.2.1 he.2.2 hi
      rw [q.1, q.2]; exact he)
    (fun ev he => he) bl.motions hbl.place ⟨hs.brush.pending, hs.brush.skipped⟩
    ⟨⟨hsc, hs.place⟩, rfl, .inl ⟨s1, _, rfl, k2, k3⟩⟩ (h1 n le_rfl)).1
  obtain ⟨⟨-, hin⟩, -, hfine⟩ := q
  refine ⟨n, ?_⟩
  rcases hfine with ⟨s2, c, e2, f2, d2⟩ | ⟨hu, e2⟩
  · left
    obtain ⟨rs, s', w1, w2, w3⟩ := endAtomic_total (g' := g) f2 d2.dirty hbl.ok.order hbl.room
    refine ⟨(rs, ⟨r.1, s', r.2.samples⟩), fun k hk => ?_, ⟨h2, hin, by rw [w3]; exact w2⟩, h3⟩
    unfold block
    rw [k1]
    simp only [bind, Except.bind, pure, Except.pure]
    rw [h1 k hk]
    simp only [e2, w1]
  · right
    refine ⟨hu, fun k hk => ?_⟩
    unfold block
    rw [k1]
    simp only [bind, Except.bind]
    rw [h1 k hk]
    simp only [e2]

theorem paint_total {e : Engine.Env K R σ} (L : Laws e) (hdec : Decays e) {b : Build} {env : Dab.Env K}
    (he : Sample.EnvOk env) {trig : Trig K} {sch : Schedule} (hsch : ∀ n l, (sch.order n l).Perm l) {C : K → K → Prop}
    (hC : Engine.Convex C) (hCb : ∀ x y, C x y → |x| ≤ 1000000 ∧ |y| ≤ 1000000) {M ρ N B d : K} {g : Surf.Room}
    {sy : Symmetries} (hsy : sy.Allowed trig g) (hCs : sy ≠ .off → ∀ x y, C x y → |x| ≤ 200000 ∧ |y| ≤ 200000)
    (bls : List (Block K)) {s : Studio K R} (hs : Poised b env trig C M ρ N g sy s) (ht : Tame e s.brush.settings M ρ N B d)
    (hg : Reason b C s.brush.settings d g) (hbl : ∀ bl ∈ bls, Orderly sy C bl) :
    ∃ n, (∃ t, (∀ k, n ≤ k → paint e b env trig sch k s bls = .ok t) ∧ Poised b env trig C M ρ N g sy t) ∨
      (g = .unsure ∧ ∀ k, n ≤ k → paint e b env trig sch k s bls = .error .assertFail) := by
  induction bls generalizing s with
  | nil => exact ⟨0, .inl ⟨s, fun _ _ => rfl, hs⟩⟩
  | cons bl bls ih =>
    obtain ⟨n, ⟨t, h1, h2, h3⟩ | ⟨hu, h1⟩⟩ := block_total L hdec he hsch hC hCb hsy hCs hs ht hg (hbl bl (List.mem_cons_self ..))
    · obtain ⟨n', q⟩ := ih h2 (h3 ▸ ht) (h3 ▸ hg) (fun bl h => hbl bl (List.mem_cons_of_mem _ h))
      have key : ∀ k, max n n' ≤ k → paint e b env trig sch k s (bl :: bls) = paint e b env trig sch k t.2 bls := by
        intro k hk
        rw [paint, h1 k ((le_max_left _ _).trans hk)]
        rfl
      refine ⟨max n n', ?_⟩
      rcases q with ⟨t', q1, q2⟩ | ⟨hu, q1⟩
      · exact .inl ⟨t', fun k hk => (key k hk).trans (q1 k ((le_max_right _ _).trans hk)), q2⟩
      · exact .inr ⟨hu, fun k hk => (key k hk).trans (q1 k ((le_max_right _ _).trans hk))⟩
    · refine ⟨n, .inr ⟨hu, fun k hk => ?_⟩⟩
      rw [paint, h1 k hk]
      rfl

end
end Verif.Painting
