import Verif.Props.C09_DirtyRects
import Verif.Props.C24_Symmetry

/-!
# C57: the rectangles returned by `end_atomic` report nothing but the block

C09 says that the rectangles are large enough, C57 that they are not larger than the dabs of the block: whatever
rectangle holds these dabs and their mirror images holds all reported rectangles. This needs that earlier blocks were
closed with their last dab visible; otherwise what they drew is reported again.
-/

namespace Verif.Full
open Verif.Dab Verif.Symm Verif.Blend Spec.Rect

variable {K : Type} [Field K] [LinearOrder K] [IsStrictOrderedRing K] [FloorRing K]

/-! ## The specification -/

/-- The pixel square of a dab with the centre `c`: one pixel more than its radius. -/
def InSquare (c : K × K) (radius : K) (X Y : Int) : Prop :=
  (⌊c.1 - (radius + 1)⌋ ≤ X ∧ X ≤ ⌊c.1 + (radius + 1)⌋) ∧ (⌊c.2 - (radius + 1)⌋ ≤ Y ∧ Y ≤ ⌊c.2 + (radius + 1)⌋)

/-- The centres of a dab and of its images under the symmetry in force. -/
def centres (trig : Trig K) (d : Data K) (a : Args K) : List (K × K) :=
  (a.x, a.y) :: if d.active = true ∧ d.num ≠ 0 then (copies trig d.current).map fun f => f (a.x, a.y) else []

/-- The rectangle `B` holds the squares of the dab and of its images. -/
def Holding (trig : Trig K) (B : Rect) (d : Data K) (a : Args K) : Prop :=
  ∀ c ∈ centres trig d a, ∀ X Y, InSquare c a.radius X Y → Has B X Y

/-- A session that consists of complete blocks of dabs, each with its last dab visible (or none), with changes of
the symmetry only between blocks. -/
inductive Tidy : List (Event K) → Prop
  | start : Tidy []
  | set {es} (h : Tidy es) (active cx cy angle type lines) : Tidy (es ++ [.setSymmetry active cx cy angle type lines])
  | block {es mid} (h : Tidy es) (al bal order roi) (hd : ∀ e ∈ mid, e.Drawing) (hl : LastVisible mid) :
      Tidy (es ++ (.beginAtomic al bal :: mid ++ [.endAtomic order roi]))

/-! ## Boxes -/

/-- Not empty. -/
def Filled (r : Rect) : Prop := 1 ≤ r.width ∧ 1 ≤ r.height

theorem zero_sub (B : Rect) : Sub Rect.zero B := by
  intro X Y h
  unfold Has Rect.zero at h
  simp only at h
  omega

theorem updateBox_tight {r B : Rect} (hp : Proper r) (hs : Sub r B) {op : Op K}
    (hB : ∀ X Y, InSquare (op.x, op.y) op.radius X Y → Has B X Y) (hr : 0 ≤ op.radius) :
    Sub (updateBox r op) B ∧ Filled (updateBox r op) := by
  have h1 := Rect.expandPoint_is_hull r ⌊op.x - (op.radius + 1)⌋ ⌊op.y - (op.radius + 1)⌋ hp
  have h2 := Rect.expandPoint_is_hull _ ⌊op.x + (op.radius + 1)⌋ ⌊op.y + (op.radius + 1)⌋ (Or.inr h1.2)
  have mx : ⌊op.x - (op.radius + 1)⌋ ≤ ⌊op.x + (op.radius + 1)⌋ := Int.floor_le_floor (by linarith)
  have my : ⌊op.y - (op.radius + 1)⌋ ≤ ⌊op.y + (op.radius + 1)⌋ := Int.floor_le_floor (by linarith)
  refine ⟨h2.1.2.2 B (h1.1.2.2 B hs ?_) ?_, h2.2⟩
  · rintro X Y ⟨rfl, rfl⟩
    exact hB _ _ ⟨⟨le_refl _, mx⟩, le_refl _, my⟩
  · rintro X Y ⟨rfl, rfl⟩
    exact hB _ _ ⟨⟨mx, le_refl _⟩, my, le_refl _⟩

omit [IsStrictOrderedRing K] in
theorem updateBox_filled (r : Rect) (hp : Proper r) (op : Op K) : Filled (updateBox r op) := by
  have h1 := Rect.expandPoint_is_hull r ⌊op.x - (op.radius + 1)⌋ ⌊op.y - (op.radius + 1)⌋ hp
  exact (Rect.expandPoint_is_hull _ ⌊op.x + (op.radius + 1)⌋ ⌊op.y + (op.radius + 1)⌋ (Or.inr h1.2)).2

theorem prepare_geometry {a : Args K} {op : Op K} (h : prepare a = .ok (some op)) :
    op.x = a.x ∧ op.y = a.y ∧ op.radius = a.radius := by
  unfold prepare at h
  dsimp only at h
  obtain ⟨n, -, h⟩ := except_bind_ok h
  split_ifs at h <;> first | (cases h; done) | (cases h; exact ⟨rfl, rfl, rfl⟩)

/-- What drawing in one box does to all boxes. -/
theorem drawInternal_tight {b : Build} {env : Env K} {s s' : FSurf K} {a : Args K} {bbox : Int} {m : Bool}
    (h : drawInternal b env s a bbox = .ok (m, s')) (hp : ∀ i, Proper (s.boxes i)) :
    (∀ i, Filled (s.boxes i) → Filled (s'.boxes i)) ∧ (m = true → Filled (s'.boxes bbox)) ∧
      (m = true → 0 ≤ bbox ∧ bbox < s.boxCap) ∧ (∀ i, i ≠ bbox → s'.boxes i = s.boxes i) ∧
      (m = false → s' = s) ∧ (m = true ↔ ¬ Invisible a) ∧
      ∀ B, (¬ Invisible a → ∀ X Y, InSquare (a.x, a.y) a.radius X Y → Has B X Y) → (∀ i, Sub (s.boxes i) B) →
        ∀ i, Sub (s'.boxes i) B := by
  rcases drawInternal_cases h with ⟨rfl, rfl, hn⟩ | ⟨rfl, op, surf, hop, hd, hb0, hb1, rfl⟩
  · refine ⟨fun i h => h, fun h => (by cases h), fun h => (by cases h), fun i _ => rfl, fun _ => rfl, ?_, fun B _ h => h⟩
    refine ⟨fun h => (by cases h), fun hv => ?_⟩
    rcases invisible_iff_nothing_queued a with ⟨h, _⟩ | ⟨h, _⟩ | ⟨_, op, h, _⟩
    · rw [h] at hn; cases hn
    · exact absurd h hv
    · rw [h] at hn; cases hn
  · have hv : ¬ Invisible a := by
      rcases invisible_iff_nothing_queued a with ⟨h, _⟩ | ⟨_, h⟩ | ⟨h, _⟩
      · rw [h] at hop; cases hop
      · rw [h] at hop; cases hop
      · exact h
    obtain ⟨gx, gy, gr⟩ := prepare_geometry hop
    have r0 : 0 ≤ op.radius := by
      rw [gr]
      by_contra hc
      apply hv
      right; right; right
      have : (0 : K) < 1 / 10 := by norm_num
      linarith
    have fl : Filled (updateBox (s.boxes bbox) op) := updateBox_filled _ (hp bbox) op
    refine ⟨?_, fun _ => by simp only [setBox, if_true]; exact fl, fun _ => ⟨hb0, hb1⟩, ?_, fun h => (by cases h),
      ⟨fun _ => hv, fun _ => rfl⟩, ?_⟩
    · intro i hi
      simp only [setBox]
      split_ifs with q
      · exact fl
      · exact hi
    · intro i hi
      simp only [setBox]
      rw [if_neg hi]
    · intro B hB hs i
      simp only [setBox]
      split_ifs with q
      · refine (updateBox_tight (hp bbox) (hs bbox) ?_ r0).1
        rw [gx, gy, gr]
        exact hB hv
      · exact hs i

theorem passFold_tight {b : Build} {env : Env K} {a : Args K} (hv : ¬ Invisible a) (ps : List (Pass K)) :
    ∀ (s s' : FSurf K), ps.foldlM (drawPass b env a) s = .ok s' → (∀ i, Proper (s.boxes i)) →
    (∀ i, Proper (s'.boxes i)) ∧ s'.boxCap = s.boxCap ∧
    (∀ i, Filled (s.boxes i) → Filled (s'.boxes i)) ∧ (∀ p ∈ ps, Filled (s'.boxes p.bbox)) ∧
      (∀ p ∈ ps, 0 ≤ p.bbox ∧ p.bbox < s.boxCap) ∧ (∀ i, (∀ p ∈ ps, i ≠ p.bbox) → s'.boxes i = s.boxes i) ∧
      ∀ B, (∀ p ∈ ps, ∀ X Y, InSquare (p.x, p.y) a.radius X Y → Has B X Y) → (∀ i, Sub (s.boxes i) B) →
        ∀ i, Sub (s'.boxes i) B := by
  induction ps with
  | nil =>
    intro s s' h hp
    cases h
    exact ⟨hp, rfl, fun i h => h, by simp, by simp, fun i _ => rfl, fun B _ h => h⟩
  | cons p ps ih =>
    intro s s' h hp
    rw [List.foldlM_cons] at h
    obtain ⟨s1, h1, h⟩ := except_bind_ok h
    unfold drawPass at h1
    obtain ⟨⟨m, s1'⟩, h2, h1⟩ := except_bind_ok h1
    cases h1
    obtain ⟨f1, f2, f3, f4, f5, f6, f7⟩ := drawInternal_tight h2 hp
    have hm : m = true := f6.mpr hv
    have e1 : s1'.boxCap = s.boxCap := by
      rcases drawInternal_cases h2 with ⟨_, rfl, _⟩ | ⟨_, op, surf, _, _, _, _, rfl⟩ <;> rfl
    have hp1 : ∀ i, Proper (s1'.boxes i) := by
      intro i
      by_cases q : i = p.bbox
      · rw [q]; exact Or.inr (f2 hm)
      · rw [f4 i q]; exact hp i
    obtain ⟨g0, g1, g2, g3, g4, g5, g6⟩ := ih s1' s' h hp1
    refine ⟨g0, g1.trans e1, fun i hi => g2 i (f1 i hi), ?_, ?_, ?_, ?_⟩
    · intro q hq
      rcases List.mem_cons.mp hq with rfl | hq
      · exact g2 _ (f2 hm)
      · exact g3 q hq
    · intro q hq
      rcases List.mem_cons.mp hq with rfl | hq
      · exact f3 hm
      · rw [← e1]; exact g4 q hq
    · intro i hi
      rw [g5 i fun q hq => hi q (List.mem_cons_of_mem _ hq), f4 i (hi p List.mem_cons_self)]
    · intro B hB hs i
      exact g6 B (fun q hq => hB q (List.mem_cons_of_mem _ hq))
        (f7 B (fun _ => hB p List.mem_cons_self) hs) i

/-! ## Every box is used -/

theorem mapM_all {A B : Type} {f : A → Except Fault B} {l : List A} {qs : List B}
    (hm : l.mapM f = .ok qs) : ∀ k ∈ l, ∃ q ∈ qs, f k = .ok q := by
  induction l generalizing qs with
  | nil => intro k hk; cases hk
  | cons a l ih =>
    rw [List.mapM_cons] at hm
    obtain ⟨b, h1, hm⟩ := except_bind_ok hm
    obtain ⟨bs, h2, hm⟩ := except_bind_ok hm
    cases hm
    intro k hk
    rcases List.mem_cons.mp hk with rfl | hk
    · exact ⟨b, List.mem_cons_self, h1⟩
    · obtain ⟨q, hq, hf⟩ := ih h2 k hk
      exact ⟨q, List.mem_cons_of_mem _ hq, hf⟩

omit [LinearOrder K] [IsStrictOrderedRing K] [FloorRing K] in
theorem pass_bbox {d : Data K} {i : Int} {x y a : K} {bb : Int} {p : Pass K} (h : pass d i x y a bb = .ok p) :
    p.bbox = bb := by
  unfold pass at h
  obtain ⟨m, _, h⟩ := except_bind_ok h
  cases h; rfl

theorem roundf_int (k : Int) {v : K} (hv : v = 1) : roundf ((k : K) / v) = k := by
  subst hv
  unfold roundf
  rw [div_one, Int.floor_eq_iff]
  constructor
  · linarith [show (0 : K) < 1 / 2 by norm_num]
  · linarith [show (1 / 2 : K) < 1 by norm_num]

/-- The number of boxes the symmetry in force asks for. -/
def wanted (s : State K) : Int := s.lines * if s.type = .snowflake then 2 else 1

/-- There are enough boxes, or there is no symmetry at all. -/
def Enough (s : State K) (numB : Int) : Prop := wanted s ≤ numB ∨ ∃ n, s.type = .other n

theorem perBox_one {n m : Int} (hm : 1 ≤ m) (h : n ≤ m) : max 1 ((n : K) / (m : K)) = 1 := by
  have hm' : (0 : K) < (m : K) := by exact_mod_cast (by omega : (0 : Int) < m)
  have : (n : K) / (m : K) ≤ 1 := (div_le_one hm').mpr (by exact_mod_cast h)
  exact max_eq_left this

theorem rotational_all {d : Data K} {numB : Int} (hB : 32 ≤ numB) (hw : wanted d.current ≤ numB)
    (hl : d.current.lines ≤ numB) {x y angle : K} {ps : List (Pass K)}
    (h : rotationalPasses d numB x y angle = .ok ps) {i : Int} (h1 : 1 ≤ i) (h2 : i < d.current.lines) :
    ∃ p ∈ ps, p.bbox = i := by
  unfold rotationalPasses at h
  dsimp only at h
  obtain ⟨p, hp, hf⟩ := mapM_all h i (mem_cRange.mpr ⟨h1, h2⟩)
  refine ⟨p, hp, ?_⟩
  have hv := pass_bbox hf
  have e : (d.current.lines : K) * (if d.current.type = .snowflake then 2 else 1) = ((wanted d.current : Int) : K) := by
    unfold wanted
    split_ifs <;> simp
  rw [e, roundf_int i (perBox_one (by omega) hw)] at hv
  omega

theorem snowflake_all {d : Data K} {numB : Int} (hB : 32 ≤ numB) (hw : d.current.lines * 2 ≤ numB) {x y angle : K}
    {ps : List (Pass K)} (h : snowflakePasses d numB x y angle = .ok ps) {i : Int} (h1 : d.current.lines ≤ i)
    (h2 : i < d.current.lines * 2) : ∃ p ∈ ps, p.bbox = i := by
  unfold snowflakePasses at h
  dsimp only at h
  obtain ⟨p, hp, hf⟩ := mapM_all h (i - d.current.lines) (mem_cRange.mpr ⟨by omega, by omega⟩)
  refine ⟨p, hp, ?_⟩
  have hv := pass_bbox hf
  have e : (d.current.lines : K) * 2 = ((d.current.lines * 2 : Int) : K) := by push_cast; ring
  rw [e, roundf_int _ (perBox_one (by omega) hw)] at hv
  omega

theorem passes_all {d : Data K} {numB : Int} (hB : 32 ≤ numB) (hw : Enough d.current numB)
    {x y angle : K} {ps : List (Pass K)} {used : Int} (h : passes d numB x y angle = .ok (ps, used)) {i : Int}
    (h1 : 1 ≤ i) (h2 : i < used) : ∃ p ∈ ps, p.bbox = i := by
  unfold passes at h
  by_cases hc : d.active = true ∧ d.num ≠ 0
  · rw [if_pos hc] at h
    dsimp only at h
    have hw (h : ∀ n, d.current.type ≠ .other n) : wanted d.current ≤ numB :=
      hw.resolve_right fun ⟨n, hn⟩ => h n hn
    cases ht : d.current.type with
    | vertical =>
      simp only [ht] at h
      obtain ⟨p, hp, h⟩ := except_bind_ok h
      cases h
      exact ⟨p, by simp, by rw [pass_bbox hp]; omega⟩
    | horizontal =>
      simp only [ht] at h
      obtain ⟨p, hp, h⟩ := except_bind_ok h
      cases h
      exact ⟨p, by simp, by rw [pass_bbox hp]; omega⟩
    | verthorz =>
      simp only [ht] at h
      obtain ⟨p0, hp0, h⟩ := except_bind_ok h
      obtain ⟨p1, hp1, h⟩ := except_bind_ok h
      obtain ⟨p2, hp2, h⟩ := except_bind_ok h
      cases h
      have : i = 1 ∨ i = 2 ∨ i = 3 := by omega
      rcases this with rfl | rfl | rfl
      · exact ⟨p0, by simp, pass_bbox hp0⟩
      · exact ⟨p1, by simp, pass_bbox hp1⟩
      · exact ⟨p2, by simp, pass_bbox hp2⟩
    | rotational =>
      simp only [ht] at h
      obtain ⟨qs, hq, h⟩ := except_bind_ok h
      cases h
      have hl : d.current.lines ≤ numB := by
        have := hw (by simp [ht])
        unfold wanted at this
        rw [ht] at this
        simpa using this
      exact rotational_all hB (hw (by simp [ht])) hl hq h1 (by omega)
    | snowflake =>
      simp only [ht] at h
      obtain ⟨qa, ha, h⟩ := except_bind_ok h
      obtain ⟨qb, hb, h⟩ := except_bind_ok h
      cases h
      have hl : d.current.lines * 2 ≤ numB := by
        have := hw (by simp [ht])
        unfold wanted at this
        rw [ht] at this
        simpa using this
      by_cases q : i < d.current.lines
      · obtain ⟨p, hp, e⟩ := rotational_all hB (hw (by simp [ht])) (by omega) hb h1 q
        exact ⟨p, by simp [hp], e⟩
      · obtain ⟨p, hp, e⟩ := snowflake_all hB hl ha (by omega) (i := i) (by omega)
        exact ⟨p, by simp [hp], e⟩
    | other n =>
      simp only [ht] at h
      cases h
      omega
  · rw [if_neg hc] at h
    cases h
    omega

theorem passes_at {trig : Trig K} {d : Data K} (l : d.active = true → trig.Laws) (hi : Inv trig d) {numB : Int} {a : Args K}
    {ps : List (Pass K)} {used : Int} (h : passes d numB a.x a.y a.angle = .ok (ps, used)) :
    ∀ p ∈ ps, (p.x, p.y) ∈ centres trig d a := by
  intro p hp
  unfold centres
  by_cases hc : d.active = true ∧ d.num ≠ 0
  · rw [if_pos hc]
    have step : ∀ (qs : List (Pass K)) (fs : List (K × K → K × K)), List.Forall₂ (IsCopy trig a.x a.y a.angle) qs fs →
        p ∈ qs → ∃ f ∈ fs, (p.x, p.y) = f (a.x, a.y) := by
      intro qs fs hf hp
      induction hf with
      | nil => cases hp
      | cons h1 _ ih =>
        rcases List.mem_cons.mp hp with rfl | hp
        · exact ⟨_, List.mem_cons_self, h1.1⟩
        · obtain ⟨f, hf, e⟩ := ih hp
          exact ⟨f, List.mem_cons_of_mem _ hf, e⟩
    obtain ⟨qs, u, hq, hf⟩ := passes_are_copies (l hc.1) hi hc.1 hc.2 numB a.x a.y a.angle
    rw [h] at hq
    cases hq
    obtain ⟨f, hf, e⟩ := step _ _ hf hp
    rw [e]
    exact List.mem_cons_of_mem _ (List.mem_map.mpr ⟨f, hf, rfl⟩)
  · unfold passes at h
    rw [if_neg hc] at h
    cases h
    cases hp

/-! ## One dab -/

theorem drawDab_tight {b : Build} {env : Env K} {trig : Trig K} (he : env.Valid) {a : Args K}
    {s s' : FSurf K} {m : Bool} {c : Canvas} (h : drawDab b env s a = .ok (m, s')) (hs : Sound b env trig s c) :
    (∀ i, Filled (s.boxes i) → Filled (s'.boxes i)) ∧
    (¬ Invisible a → Enough s.symm.current s.numB →
      ∀ i, 0 ≤ i → i < usedOf s.symm s.numB → Filled (s'.boxes i)) ∧
    (∀ i, ¬ (0 ≤ i ∧ i < usedOf s.symm s.numB) → s'.boxes i = s.boxes i) ∧
    ((s.symm.active = true → trig.Laws) → ∀ B, (¬ Invisible a → Holding trig B s.symm a) →
      (∀ i, Sub (s.boxes i) B) → ∀ i, Sub (s'.boxes i) B) := by
  unfold drawDab at h
  obtain ⟨⟨m1, s1⟩, h1, h⟩ := except_bind_ok h
  obtain ⟨c1, hs1, e1, e2, e3, e4, _⟩ := drawInternal_sound (c0 := c) he h1 hs
  obtain ⟨f1, f2, f3, f4, f5, f6, f7⟩ := drawInternal_tight h1 hs.proper
  simp only at h
  cases m1 with
  | false =>
    simp only [Bool.false_eq_true, if_false, pure, Except.pure] at h
    cases h
    obtain rfl := f5 rfl
    refine ⟨fun i h => h, fun hv => absurd (f6.mpr hv) (by decide), fun i _ => rfl, fun _ B _ h => h⟩
  | true =>
    simp only [if_true] at h
    obtain ⟨⟨ps, used⟩, h2, h⟩ := except_bind_ok h
    obtain ⟨s2, h3, h⟩ := except_bind_ok h
    simp only [pure, Except.pure] at h
    cases h
    have hv := f6.mp rfl
    obtain ⟨hu, hu1, hps⟩ := passes_used h2 hs1.big hs1.symm.small
    obtain ⟨g0, g1, g2, g3, g4, g5, g6⟩ := passFold_tight hv ps s1 s2 h3 hs1.proper
    have hcap := hs1.cap
    rw [e1, e2] at hu
    refine ⟨fun i hi => g2 i (f1 i hi), ?_, ?_, ?_⟩
    · intro _ hw i h0 hlt
      by_cases q : i = 0
      · rw [q]; exact g2 0 (f2 rfl)
      · obtain ⟨p, hp, e⟩ := passes_all (i := i) hs1.big (by rw [e1, e2]; exact hw) h2 (by omega) (by omega)
        rw [← e]; exact g3 p hp
    · intro i hi
      have : s2.boxes i = s1.boxes i := by
        refine g5 i fun p hp e => hi ?_
        obtain ⟨p0, p1⟩ := g4 p hp
        have := hps p hp (by omega)
        omega
      show s2.boxes i = s.boxes i
      rw [this]
      refine f4 i fun e => hi ?_
      omega
    · intro l B hB hsub
      have hh := hB hv
      refine g6 B ?_ (f7 B (fun _ => hh _ (by simp [centres])) hsub)
      intro p hp
      have := passes_at (by rw [e1]; exact l) hs1.symm h2 p hp
      rw [e1] at this
      exact hh _ this

/-! ## A block -/

theorem block_tight {b : Build} {env : Env K} (he : env.Valid) {trig : Trig K} (es : List (Event K))
    (s s' : FSurf K) (c : Canvas) (hd : ∀ e ∈ es, e.Drawing)
    (h : run b env trig s es = .ok s') (hs : Sound b env trig s c) :
    (∀ i, Filled (s.boxes i) → Filled (s'.boxes i)) ∧
    (∀ a ∈ dabs es, ¬ Invisible a → Enough s.symm.current s.numB →
      ∀ i, 0 ≤ i → i < usedOf s.symm s.numB → Filled (s'.boxes i)) ∧
    (∀ i, ¬ (0 ≤ i ∧ i < usedOf s.symm s.numB) → s'.boxes i = s.boxes i) ∧
    ((s.symm.active = true → trig.Laws) → ∀ B, (∀ a ∈ dabs es, ¬ Invisible a → Holding trig B s.symm a) →
      (∀ i, Sub (s.boxes i) B) → ∀ i, Sub (s'.boxes i) B) ∧
    ((∀ a ∈ dabs es, Invisible a) → s'.boxes = s.boxes ∧ (s.dirty = 0 → s'.dirty = 0)) := by
  induction es generalizing s c with
  | nil =>
    cases h
    exact ⟨fun i h => h, by simp [dabs], fun i _ => rfl, fun _ B _ h => h, fun _ => ⟨rfl, id⟩⟩
  | cons e es ih =>
    obtain ⟨rs, s1, h1, h2⟩ := run_cons h
    have hd' : ∀ e ∈ es, e.Drawing := fun e he => hd e (by simp [he])
    cases e with
    | dab a =>
      obtain ⟨⟨m, s1'⟩, h3, h4⟩ := except_bind_ok (show (drawDab b env s a >>= fun x => .ok ([], x.2)) = _ from h1)
      cases h4
      obtain ⟨c1, hs1, e1, e2, e3, hvis, hinv, _⟩ := drawDab_sound (c0 := c) he h3 hs
      obtain ⟨f1, f2, f3, f4⟩ := drawDab_tight he h3 hs
      simp only at h2
      obtain ⟨g1, g2, g3, g4, g5⟩ := ih s1' c1 hd' h2 hs1
      rw [e1, e2] at g2 g3
      rw [e1] at g4
      refine ⟨fun i hi => g1 i (f1 i hi), ?_, fun i hi => (g3 i hi).trans (f3 i hi), ?_, ?_⟩
      · intro a' ha' hv hw i h0 hlt
        simp only [dabs, List.mem_cons] at ha'
        rcases ha' with rfl | ha'
        · exact g1 i (f2 hv hw i h0 hlt)
        · exact g2 a' ha' hv hw i h0 hlt
      · intro l B hB hsub
        exact g4 l B (fun a' ha' => hB a' (by simp [dabs, ha'])) (f4 l B (hB a (by simp [dabs])) hsub)
      · intro hall
        obtain ⟨q1, q2⟩ := hinv (hall a (by simp [dabs]))
        obtain ⟨r1, r2⟩ := g5 fun a' ha' => hall a' (by simp [dabs, ha'])
        exact ⟨r1.trans q2, fun _ => r2 q1⟩
    | sample ts =>
      unfold step at h1
      obtain ⟨⟨vs, s1'⟩, h3, h4⟩ := except_bind_ok h1
      cases h4
      exact ih { s with surf := s1' } c hd' h2 (sample_sound h3 hs)
    | setSymmetry => exact absurd (hd _ (List.mem_cons_self)) (by simp [Event.Drawing])
    | beginAtomic => exact absurd (hd _ (List.mem_cons_self)) (by simp [Event.Drawing])
    | endAtomic => exact absurd (hd _ (List.mem_cons_self)) (by simp [Event.Drawing])

/-! ## Between blocks -/

/-- Only boxes that the next `begin_atomic` clears are in use. -/
def Clean (s : FSurf K) : Prop := ∀ i, s.boxes i = Rect.zero ∨ (0 ≤ i ∧ i < min s.numB s.dirty)

theorem begin_clears {trig : Trig K} {al bal : Int → Bool} {s s' : FSurf K} (hc : Clean s)
    (h : beginAtomic trig al bal s = .ok s') : ∀ i, s'.boxes i = Rect.zero := by
  unfold beginAtomic at h
  obtain ⟨symm, h1, h⟩ := except_bind_ok h
  unfold prepareBoxes at h
  simp only at h
  intro i
  have old (hn : min s.numB s.dirty ≤ s.boxCap) : (if 0 ≤ i ∧ i < min s.numB s.dirty then Rect.zero else s.boxes i) =
      Rect.zero := by
    rcases hc i with q | q
    · rw [q]; split <;> rfl
    · rw [if_pos q]
  generalize symm.current.lines * (if symm.current.type = .snowflake then 2 else 1) = desired at h
  by_cases h2 : desired > s.numB
  · rw [if_pos h2] at h
    by_cases h3 : 0 ≤ toI32 ((desired + 10) * 16) ∧ bal (toI32 ((desired + 10) * 16)) = true
    · simp only [if_pos h3] at h
      split at h
      · cases h
        simp
      · cases h
    · simp only [if_neg h3] at h
      split at h
      · rename_i hn
        cases h
        exact old hn
      · cases h
  · rw [if_neg h2] at h
    simp only at h
    split at h
    · rename_i hn
      cases h
      exact old hn
    · cases h

theorem begin_boxes {b : Build} {env : Env K} {trig : Trig K} {al bal : Int → Bool} {s s' : FSurf K} {c : Canvas}
    (h : beginAtomic trig al bal s = .ok s') (hs : Sound b env trig s c) (hb : ∀ n, bal n = true) :
    Enough s'.symm.current s'.numB := by
  have hinv := (beginAtomic_sound h hs).1.symm
  unfold beginAtomic at h
  obtain ⟨symm, h1, h⟩ := except_bind_ok h
  unfold prepareBoxes at h
  simp only at h
  have hw : wanted symm.current = symm.current.lines * (if symm.current.type = .snowflake then 2 else 1) := rfl
  rw [← hw] at h
  have key : s'.symm = symm ∧ (wanted symm.current ≤ s'.numB ∨ ¬ 0 ≤ toI32 ((wanted symm.current + 10) * 16)) := by
    by_cases h2 : wanted symm.current > s.numB
    · rw [if_pos h2] at h
      by_cases h3 : 0 ≤ toI32 ((wanted symm.current + 10) * 16) ∧
          bal (toI32 ((wanted symm.current + 10) * 16)) = true
      · simp only [if_pos h3] at h
        split at h
        · cases h
          exact ⟨rfl, Or.inl (by simp only; omega)⟩
        · cases h
      · simp only [if_neg h3] at h
        split at h
        · cases h
          exact ⟨rfl, Or.inr fun q => h3 ⟨q, hb _⟩⟩
        · cases h
    · rw [if_neg h2] at h
      simp only at h
      split at h
      · cases h
        exact ⟨rfl, Or.inl (by simp only; omega)⟩
      · cases h
  obtain ⟨e, key⟩ := key
  rw [e] at hinv ⊢
  rcases key with key | key
  · exact Or.inl key
  · rcases hinv.small with q | q
    · exfalso
      apply key
      obtain ⟨q1, q2⟩ := q
      unfold wanted toI32
      split_ifs <;> omega
    · exact Or.inr q

theorem block_clean {b : Build} {env : Env K} (he : env.Valid) {trig : Trig K} {mid : List (Event K)}
    {s s' : FSurf K} {c : Canvas} (hd : ∀ e ∈ mid, e.Drawing) (hl : LastVisible mid)
    (h : run b env trig s mid = .ok s') (hs : Sound b env trig s c) (hz : ∀ i, s.boxes i = Rect.zero)
    : Clean s' := by
  obtain ⟨_, _, f3, _, f5⟩ := block_tight he mid s s' c hd h hs
  rcases hl with hl | ⟨l', a, hl, ha⟩
  · intro i
    left
    rw [(f5 hl).1]; exact hz i
  · obtain ⟨c', hs3, _, _, en, hdirty, _⟩ := block_sound he mid s s' c _
        (usedOf s.symm s.numB) hd h hs (fun X Y p q hp hq hne => by rw [hp] at hq; cases hq; exact absurd rfl hne)
        (Or.inr rfl)
    intro i
    by_cases q : 0 ≤ i ∧ i < usedOf s.symm s.numB
    · right
      rw [hdirty l' a hl ha, en]
      have := usedOf_le s.symm hs.big
      omega
    · left
      rw [f3 i q]; exact hz i

theorem tidy_settled {es : List (Event K)} (h : Tidy es) : Settled es := by
  induction h with
  | start => exact .start
  | set _ active cx cy angle type lines ih => exact .set ih active cx cy angle type lines
  | @block es mid _ al bal order roi _ _ ih =>
    have := Settled.ended (es ++ (.beginAtomic al bal :: mid)) order roi
    simpa using this

theorem endAtomic_boxes {env : Env K} {order : List TileIndex → List TileIndex} {roi : Option (Int × (Int → Rect))}
    {s s' : FSurf K} {rs : List Rect} (h : endAtomic env order roi s = .ok (rs, s')) :
    s'.boxes = s.boxes ∧ s'.numB = s.numB ∧ s'.dirty = s.dirty := by
  unfold endAtomic at h
  obtain ⟨surf, _, h⟩ := except_bind_ok h
  rcases roi with _ | ⟨n, old⟩
  · cases h; exact ⟨rfl, rfl, rfl⟩
  · simp only at h
    obtain ⟨rs', _, h⟩ := except_bind_ok h
    cases h; exact ⟨rfl, rfl, rfl⟩

theorem tidy_clean {b : Build} {env : Env K} (he : env.Valid) {trig : Trig K} {alloc : Int → Bool}
    {garbage : Int → Transform K} {dirty : Int} {canvas : Canvas} {s0 s1 : FSurf K}
    (h0 : init b trig alloc garbage dirty canvas = .ok s0) {pre : List (Event K)} (ht : Tidy pre)
    (ho : ∀ e ∈ pre, e.Ok) (h1 : run b env trig s0 pre = .ok s1) : Clean s1 := by
  induction ht generalizing s1 with
  | start =>
    cases h1
    unfold init at h0
    obtain ⟨symm, _, h0⟩ := except_bind_ok h0
    obtain ⟨surf, _, h0⟩ := except_bind_ok h0
    cases h0
    exact fun i => Or.inl rfl
  | @set es h active cx cy angle type lines ih =>
    obtain ⟨s2, h2, h3⟩ := run_append h1
    have hs2 := ih (fun e he => ho e (by simp [he])) h2
    obtain ⟨rs, s3, h4, h5⟩ := run_cons h3
    cases h5
    cases h4
    exact hs2
  | @block es mid h al bal order roi hd hl ih =>
    obtain ⟨s2, h2, h3⟩ := run_append h1
    have hs2 := ih (fun e he => ho e (by simp [he])) h2
    have hsnd := settled_canvas he h0 (tidy_settled h) (fun e he => ho e (by simp [he])) h2
    rw [List.cons_append] at h3
    obtain ⟨rs, s3, h4, h5⟩ := run_cons h3
    obtain ⟨s3', h4a, h4b⟩ := except_bind_ok (show (beginAtomic trig al bal s2 >>= fun x => .ok ([], x)) = _ from h4)
    cases h4b
    obtain ⟨s5, h6, h7⟩ := run_append h5
    obtain ⟨rs', s6, h8, h9⟩ := run_cons h7
    cases h9
    obtain ⟨hs3, hdirty, _, _⟩ := beginAtomic_sound h4a hsnd
    have hc := block_clean he hd hl h6 hs3 (begin_clears hs2 h4a)
    obtain ⟨q1, q2, q3⟩ := endAtomic_boxes (show endAtomic env order roi s5 = _ from h8)
    unfold Clean
    rw [q1, q2, q3]
    exact hc

/-! ## The list of rectangles -/

theorem outFold_tight (boxes : Int → Rect) (boxCap n m : Int) (B : Rect)
    (l : List Int) (hl : ∀ i ∈ l, i < m ∧ Filled (boxes i) ∧ Sub (boxes i) B) (out out' : Int → Rect)
    (ho : ∀ i, 0 ≤ i → i < n → i < m → Proper (out i) ∧ Sub (out i) B)
    (h : l.foldlM (fun (out : Int → Rect) i =>
      if 0 ≤ outIndex n m i ∧ outIndex n m i < n ∧ i < boxCap then
        .ok (setBox out (outIndex n m i) ((out (outIndex n m i)).expandRect (boxes i)))
      else .error .outOfBounds) out = (Except.ok out' : Except Fault (Int → Rect))) :
    ∀ i, 0 ≤ i → i < n → i < m → Proper (out' i) ∧ Sub (out' i) B := by
  induction l generalizing out with
  | nil =>
    simp only [List.foldlM_nil, pure, Except.pure] at h
    cases h
    exact ho
  | cons i l ih =>
    rw [List.foldlM_cons] at h
    obtain ⟨out1, h1, h⟩ := except_bind_ok h
    split_ifs at h1 with hk
    cases h1
    obtain ⟨hi, hf, hsub⟩ := hl i (by simp)
    have hkm : outIndex n m i < m := by
      by_cases hmn : m > n
      · omega
      · unfold outIndex at *
        rw [if_neg hmn] at *
        exact hi
    obtain ⟨o1, o2⟩ := ho _ hk.1 hk.2.1 hkm
    have hull := Rect.expandRect_is_hull (out (outIndex n m i)) (boxes i) o1 hf
    refine ih (fun j hj => hl j (by simp [hj])) _ ?_ h
    intro j h0 h1 h2
    simp only [setBox]
    split_ifs with hj
    · exact ⟨Or.inr hull.2, hull.1.2.2 B o2 hsub⟩
    · exact ho j h0 h1 h2

theorem outRects_tight {boxes : Int → Rect} {boxCap n m : Int} {B : Rect}
    (hb : ∀ i, 0 ≤ i → i < m → Filled (boxes i) ∧ Sub (boxes i) B)
    {old : Int → Rect} {rs : List Rect} (h : outRects boxes boxCap n m old = .ok rs) : ∀ r ∈ rs, Sub r B := by
  unfold outRects at h
  obtain ⟨out, h1, h2⟩ := except_bind_ok h
  clear h
  cases h2
  have := outFold_tight boxes boxCap n m B (cRange 0 m) (fun i hi => by
    rw [mem_cRange] at hi
    exact ⟨hi.2, hb i hi.1 hi.2⟩) _ out (by
      intro i h0 h1 h2
      rw [if_pos ⟨h0, by omega⟩]
      exact ⟨Or.inl rfl, zero_sub B⟩) h1
  intro r hr
  obtain ⟨k, hk, rfl⟩ := List.mem_map.mp hr
  rw [mem_cRange] at hk
  exact (this k hk.1 (by omega) (by omega)).2

/-! ## The property -/

/-- **C57, partial.** After a tidy session, draw a block that ends with a visible dab (or has none) and end it into a
list of any size. Any rectangle that holds the squares of all visible dabs of the block and of their images under the
symmetry in force holds every reported rectangle. In particular nothing of an earlier block is reported, and a block
without visible dabs reports nothing. Partial: the tidiness of the blocks, and the memory for the boxes (`hbal`). -/
theorem reports_only_the_block_partial {b : Build} {env : Env K} (he : env.Valid) {trig : Trig K}
    {alloc al bal : Int → Bool} {garbage : Int → Transform K} {dirty : Int} {canvas : Canvas}
    {s0 s1 s2 s3 s4 : FSurf K} {pre mid : List (Event K)} {r0 : List Rect} {rs : List Rect}
    {order : List TileIndex → List TileIndex} {n : Int} {old : Int → Rect}
    (h0 : init b trig alloc garbage dirty canvas = .ok s0)
    (hpre : Tidy pre) (hok : ∀ e ∈ pre, e.Ok) (h1 : run b env trig s0 pre = .ok s1)
    (hbal : ∀ n, bal n = true) (h2 : step b env trig s1 (.beginAtomic al bal) = .ok (r0, s2))
    (hmid : ∀ e ∈ mid, e.Drawing) (hlast : LastVisible mid) (h3 : run b env trig s2 mid = .ok s3)
    (h4 : step b env trig s3 (.endAtomic order (some (n, old))) = .ok (rs, s4))
    (l : s2.symm.active = true → trig.Laws) {B : Rect} (hB : ∀ a ∈ dabs mid, ¬ Invisible a → Holding trig B s2.symm a) :
    (∀ r ∈ rs, Sub r B) ∧ ((∀ a ∈ dabs mid, Invisible a) → rs = []) := by
  have hs1 := settled_canvas he h0 (tidy_settled hpre) hok h1
  have hc1 := tidy_clean he h0 hpre hok h1
  obtain ⟨s2', h2a, h2b⟩ := except_bind_ok (show (beginAtomic trig al bal s1 >>= fun x => .ok ([], x)) = _ from h2)
  cases h2b
  obtain ⟨hs2, hdirty, _, _⟩ := beginAtomic_sound h2a hs1
  have hz := begin_clears hc1 h2a
  obtain ⟨_, f2, _, f4, f5⟩ := block_tight he mid s2 s3 _ hmid h3 hs2
  have hsub := f4 l B hB fun i => by rw [hz i]; exact zero_sub B
  obtain ⟨rs', h5, h6⟩ : ∃ rs', outRects s3.boxes s3.boxCap n s3.dirty old = .ok rs' ∧ rs = rs' := by
    have h4' : endAtomic env order (some (n, old)) s3 = .ok (rs, s4) := h4
    unfold endAtomic at h4'
    obtain ⟨surf, _, h4'⟩ := except_bind_ok h4'
    simp only at h4'
    obtain ⟨rs', h5, h4'⟩ := except_bind_ok h4'
    cases h4'
    exact ⟨rs, h5, rfl⟩
  subst h6
  have none (hall : ∀ a ∈ dabs mid, Invisible a) : rs = [] := by
    have e := (f5 hall).2 hdirty
    rw [e] at h5
    have h5' := h5
    unfold outRects at h5'
    obtain ⟨out, _, h5'⟩ := except_bind_ok h5'
    cases h5'
    have : cRange 0 (min n 0) = [] := by
      unfold cRange
      rw [show (min n 0 - 0).toNat = 0 by omega]; rfl
    rw [this]; rfl
  refine ⟨?_, none⟩
  rcases hlast with hl | ⟨l', a, hl, ha⟩
  · rw [none hl]; simp
  · obtain ⟨c', hs3, _, _, en, hdirt, _⟩ := block_sound he mid s2 s3 s1.surf.canvas _
        (usedOf s2.symm s2.numB) hmid h3 hs2
        (fun X Y p q hp hq hne => by rw [hp] at hq; cases hq; exact absurd rfl hne) (Or.inr rfl)
    have hd := hdirt l' a hl ha
    refine outRects_tight ?_ h5
    intro i h0 hlt
    refine ⟨?_, hsub i⟩
    exact f2 a (by rw [hl]; simp) ha (begin_boxes h2a hs1 hbal) i h0 (by omega)

/-! ## Concrete sessions -/

/-- The rectangles of the last block of a session. -/
def rects (pre mid : List (Event ℚ)) (n : Int) : Except Fault (List Rect) :=
  match demo pre mid n with
  | .error e => .error e
  | .ok (_, _, _, _, rs, _) => .ok rs

/-- Begin a block, draw, and end it without asking for rectangles. -/
def whole (mid : List (Event ℚ)) : List (Event ℚ) :=
  .beginAtomic (fun _ => true) (fun _ => true) :: mid ++ [.endAtomic id none]

def faraway : Args ℚ := { demoArgs with x := 500, y := 300 }

/-- After a tidy block, exactly the square of the one dab of the next block is reported. -/
example : rects (whole [.dab faraway]) [.dab demoArgs] 4 = .ok [⟨59, 5, 11, 11⟩] := by decide +kernel

example : Tidy (whole [.dab faraway]) ∧ LastVisible [Event.dab demoArgs] := by
  refine ⟨Tidy.block (es := []) .start _ _ _ _ ?_ ?_, Or.inr ⟨[], demoArgs, rfl, ?_⟩⟩
  · simp [Event.Drawing]
  · refine Or.inr ⟨[], faraway, rfl, ?_⟩
    unfold Invisible faraway demoArgs; norm_num
  · unfold Invisible demoArgs; norm_num

/-- The theorem applies to this session, with the square of the dab. -/
example : ∃ s0 s1 s2 s3 s4 rs, demo (whole [.dab faraway]) [.dab demoArgs] 4 = .ok (s0, s1, s2, s3, rs, s4) ∧
    (∀ r ∈ rs, Sub r ⟨59, 5, 11, 11⟩) := by
  obtain ⟨v, hv, ha⟩ : ∃ v, demo (whole [.dab faraway]) [.dab demoArgs] 4 = .ok v ∧ v.2.2.1.symm.active = false := by
    have : (match demo (whole [.dab faraway]) [.dab demoArgs] 4 with
        | .error _ => true | .ok v => v.2.2.1.symm.active) = false := by decide +kernel
    cases hd : demo (whole [.dab faraway]) [.dab demoArgs] 4 with
    | error e => rw [hd] at this; cases this
    | ok v => rw [hd] at this; exact ⟨v, rfl, this⟩
  obtain ⟨s0, s1, s2, s3, rs, s4⟩ := v
  refine ⟨s0, s1, s2, s3, s4, rs, hv, ?_⟩
  unfold demo at hv
  obtain ⟨t0, h0, hv⟩ := except_bind_ok hv
  obtain ⟨t1, h1, hv⟩ := except_bind_ok hv
  obtain ⟨⟨r0, t2⟩, h2, hv⟩ := except_bind_ok hv
  obtain ⟨t3, h3, hv⟩ := except_bind_ok hv
  obtain ⟨⟨r4, t4⟩, h4, hv⟩ := except_bind_ok hv
  cases hv
  have hvis : ∀ x y, ¬ Invisible { demoArgs with x := x, y := y } := by
    intro x y; unfold Invisible demoArgs; norm_num
  refine (reports_only_the_block_partial demoEnv_valid h0
    (Tidy.block (es := []) .start _ _ _ _ (by simp [Event.Drawing]) (Or.inr ⟨[], faraway, rfl, hvis _ _⟩)) ?_ h1
    (fun _ => rfl) h2 (by simp [Event.Drawing]) (Or.inr ⟨[], demoArgs, rfl, hvis _ _⟩) h3 h4
    (fun q => by rw [show t2.symm.active = false from ha] at q; cases q) ?_).1
  · intro e he
    simp only [List.nil_append, List.mem_append, List.mem_cons, List.not_mem_nil, or_false] at he
    rcases he with (rfl | rfl) | rfl <;> simp [Event.Ok]
  · intro a hm _ c hc X Y hs
    simp only [dabs, List.mem_singleton] at hm
    subst hm
    have ha' : t2.symm.active = false := ha
    unfold centres at hc
    rw [ha'] at hc
    simp only [Bool.false_eq_true, false_and, if_false, List.mem_singleton] at hc
    subst hc
    have f1 : ⌊(64 : ℚ) - (4 + 1)⌋ = 59 := by norm_num
    have f2 : ⌊(64 : ℚ) + (4 + 1)⌋ = 69 := by norm_num
    have f3 : ⌊(10 : ℚ) - (4 + 1)⌋ = 5 := by norm_num
    have f4 : ⌊(10 : ℚ) + (4 + 1)⌋ = 15 := by norm_num
    unfold InSquare demoArgs at hs
    simp only [f1, f2, f3, f4] at hs
    unfold Has
    simp only
    omega

/-- **C57 fails** after a block whose last dab is invisible: the next block, which is one dab, reports the area of the
dabs of the earlier one, too. -/
theorem earlier_block_reported_again :
    rects (whole [.dab faraway, .dab seeThrough]) [.dab demoArgs] 4 = .ok [⟨59, 5, 447, 301⟩] := by decide +kernel

/-- **C57 fails** after a block in which the symmetry was switched off between two dabs. -/
theorem mirror_image_reported_again :
    rects (mirror ++ whole [.dab faraway, .setSymmetry false 0 20 0 .horizontal 2, .dab faraway] ++ mirror)
      [.dab demoArgs] 4 = .ok [⟨59, 5, 11, 11⟩, ⟨59, -265, 447, 301⟩] := by decide +kernel

end Verif.Full
