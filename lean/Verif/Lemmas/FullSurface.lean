import Verif.Model.FullSurface
import Verif.Props.C11_Dab
import Verif.Props.C10_Rectangle
import Verif.Lemmas.SymmetryTable

/-! Helper lemmas for the whole surface. -/

namespace Verif.Full
open Verif.Dab Verif.Symm Verif.Blend Spec.Rect

variable {K : Type} [Field K] [LinearOrder K] [IsStrictOrderedRing K] [FloorRing K]

/-- What always holds: the surface stands for a canvas, the boxes are proper. -/
structure Sound (b : Build) (env : Env K) (trig : Trig K) (s : FSurf K) (c : Canvas) : Prop where
  stands : ∃ st, Surf.Stands b (kind env) s.surf st c
  proper : ∀ i, Proper (s.boxes i)
  cap : s.boxCap ≤ s.numB
  big : 32 ≤ s.numB
  symm : Inv trig s.symm

theorem updateBox_proper (r : Rect) (h : Proper r) (op : Op K) :
    Proper (updateBox r op) := by
  have h1 := (Rect.expandPoint_is_hull r ⌊op.x - (op.radius + 1)⌋ ⌊op.y - (op.radius + 1)⌋ h).2
  exact Or.inr (Rect.expandPoint_is_hull _ ⌊op.x + (op.radius + 1)⌋ ⌊op.y + (op.radius + 1)⌋ (Or.inr h1)).2

theorem updateBox_sub (r : Rect) (h : Proper r) (op : Op K) : Sub r (updateBox r op) := by
  have h1 := Rect.expandPoint_is_hull r ⌊op.x - (op.radius + 1)⌋ ⌊op.y - (op.radius + 1)⌋ h
  have h2 := Rect.expandPoint_is_hull _ ⌊op.x + (op.radius + 1)⌋ ⌊op.y + (op.radius + 1)⌋ (Or.inr h1.2)
  exact fun X Y hh => h2.1.1 X Y (h1.1.1 X Y hh)

theorem updateBox_has (r : Rect) (h : Proper r) (op : Op K) (X Y : Int)
    (hx : ⌊op.x - (op.radius + 1)⌋ ≤ X ∧ X ≤ ⌊op.x + (op.radius + 1)⌋)
    (hy : ⌊op.y - (op.radius + 1)⌋ ≤ Y ∧ Y ≤ ⌊op.y + (op.radius + 1)⌋) : Has (updateBox r op) X Y := by
  have h1 := Rect.expandPoint_is_hull r ⌊op.x - (op.radius + 1)⌋ ⌊op.y - (op.radius + 1)⌋ h
  have h2 := Rect.expandPoint_is_hull _ ⌊op.x + (op.radius + 1)⌋ ⌊op.y + (op.radius + 1)⌋ (Or.inr h1.2)
  have a := h2.1.1 _ _ (h1.1.2.1 _ _ ⟨rfl, rfl⟩)
  have e := h2.1.2.1 _ _ ⟨rfl, rfl⟩
  unfold updateBox
  simp only
  unfold Has at *
  omega

theorem drawInternal_cases {b : Build} {env : Env K} {s s' : FSurf K} {a : Args K} {bbox : Int}
    {m : Bool} (h : drawInternal b env s a bbox = .ok (m, s')) :
    (m = false ∧ s' = s ∧ prepare a = .ok none) ∨
    (m = true ∧ ∃ op surf, prepare a = .ok (some op) ∧
      Surf.drawDab b (kind env) s.surf op = .ok surf ∧ 0 ≤ bbox ∧ bbox < s.boxCap ∧
      s' = { s with surf := surf, boxes := setBox s.boxes bbox (updateBox (s.boxes bbox) op) }) := by
  unfold drawInternal at h
  cases hp : prepare a with
  | error e => simp only [hp, bind, Except.bind, reduceCtorEq] at h
  | ok o =>
    cases o with
    | none =>
      simp only [hp, bind, Except.bind, pure, Except.pure] at h
      cases h
      exact Or.inl ⟨rfl, rfl, rfl⟩
    | some op =>
      right
      simp only [hp, bind, Except.bind] at h
      by_cases hc : convertible op = true
      · rw [if_pos hc] at h
        cases hd : Surf.drawDab b (kind env) s.surf op with
        | error e => simp only [hd, reduceCtorEq] at h
        | ok surf =>
          simp only [hd] at h
          by_cases hb : 0 ≤ bbox ∧ bbox < s.boxCap
          · rw [if_pos hb] at h
            cases h
            exact ⟨rfl, op, surf, rfl, hd, hb.1, hb.2, rfl⟩
          · rw [if_neg hb] at h; cases h
      · rw [if_neg hc] at h; cases h

/-- The pixels that changed since `c0` lie in the first `n` boxes. -/
def Covered (c0 c : Canvas) (boxes : Int → Rect) (n : Int) : Prop :=
  ∀ X Y p q, pixel c0 X Y = .ok p → pixel c X Y = .ok q → p ≠ q →
    ∃ i, 0 ≤ i ∧ i < n ∧ Has (boxes i) X Y

theorem pixel_sticky {env : Env K} {c : Canvas} {op : Op K} {X Y : Int} {q : Px}
    (h : pixel (Spec.Surf.drawNow (kind env) c op) X Y = .ok q) : ∃ p, pixel c X Y = .ok p := by
  unfold pixel at *
  cases hc : c (tileOfPixel X Y) with
  | ok t => exact ⟨_, rfl⟩
  | error e =>
    exfalso
    have : Spec.Surf.drawNow (kind env) c op (tileOfPixel X Y) = .error e := by
      unfold Spec.Surf.drawNow
      split
      · simp only [kind, hc, Except.bind]
      · exact hc
    rw [this] at h
    cases h

theorem pixel_changed {env : Env K} (he : env.Valid) {op : Op K} (ho : op.Valid) {c : Canvas} {X Y : Int}
    {p q : Px} (hp : pixel c X Y = .ok p) (hq : pixel (Spec.Surf.drawNow (kind env) c op) X Y = .ok q)
    (hne : p ≠ q) :
    (⌊op.x - (op.radius + 1)⌋ ≤ X ∧ X ≤ ⌊op.x + (op.radius + 1)⌋) ∧
    (⌊op.y - (op.radius + 1)⌋ ≤ Y ∧ Y ≤ ⌊op.y + (op.radius + 1)⌋) := by
  have hop : opacity env op X Y ≠ 0 := by
    intro h0
    have hp' := hp
    have hq' := hq
    unfold pixel at hp' hq'
    cases hc : c (tileOfPixel X Y) with
    | error e => rw [hc] at hp'; cases hp'
    | ok t =>
      cases hd : Spec.Surf.drawNow (kind env) c op (tileOfPixel X Y) with
      | error e => rw [hd] at hq'; cases hq'
      | ok t' =>
        have := dab_pixelwise he ho c X Y t t' hc hd
        rw [if_pos h0, hp, hq] at this
        exact hne (by cases this; rfl)
  obtain ⟨h1, h2, h3, h4⟩ := Mask.opacityAt_support (shapeOf_valid he ho) hop
  exact ⟨⟨h1, h2⟩, h3, h4⟩

theorem drawInternal_sound {b : Build} {env : Env K} {trig : Trig K} (he : env.Valid) {s s' : FSurf K} {a : Args K}
    {bbox : Int} {m : Bool} {c0 c : Canvas} (h : drawInternal b env s a bbox = .ok (m, s'))
    (hs : Sound b env trig s c) :
    ∃ c', Sound b env trig s' c' ∧ s'.symm = s.symm ∧ s'.numB = s.numB ∧ s'.boxCap = s.boxCap ∧
      s'.dirty = s.dirty ∧
      (∀ n, (m = true → bbox < s.numB → bbox < n) → Covered c0 c s.boxes n →
        Covered c0 c' s'.boxes n) := by
  rcases drawInternal_cases h with ⟨rfl, rfl, _⟩ | ⟨rfl, op, surf, hp, hd, hb0, hb1, rfl⟩
  · exact ⟨c, hs, rfl, rfl, rfl, rfl, fun n _ hc => hc⟩
  · obtain ⟨st, hst⟩ := hs.stands
    have hov := prepare_valid hp
    obtain ⟨st', hst'⟩ := Surf.stands_dab hst op (tilesOf_nodup op) hd
    refine ⟨_, ⟨⟨st', hst'⟩, ?_, hs.cap, hs.big, hs.symm⟩, rfl, rfl, rfl, rfl, ?_⟩
    · intro i
      simp only [setBox]
      split_ifs
      · exact updateBox_proper _ (hs.proper _) op
      · exact hs.proper i
    · intro n hn hcov X Y p q hp0 hq hne
      have hbn := hn rfl (lt_of_lt_of_le hb1 hs.cap)
      obtain ⟨r, hr⟩ := pixel_sticky hq
      by_cases hpr : p = r
      · subst hpr
        obtain ⟨hx, hy⟩ := pixel_changed he hov hr hq hne
        refine ⟨bbox, hb0, hbn, ?_⟩
        simp only [setBox, if_true]
        exact updateBox_has _ (hs.proper _) op X Y hx hy
      · obtain ⟨i, hi0, hi1, hh⟩ := hcov X Y p r hp0 hr hpr
        refine ⟨i, hi0, hi1, ?_⟩
        simp only [setBox]
        split_ifs with hib
        · subst hib
          exact updateBox_sub _ (hs.proper _) op X Y hh
        · exact hh

/-! ### The number of boxes used by the symmetry passes -/

/-- The number of bounding boxes the passes use (lines 702-796). -/
def usedOf (d : Data K) (numB : Int) : Int :=
  if d.active = true ∧ d.num ≠ 0 then
    match d.current.type with
    | .vertical => 2
    | .horizontal => 2
    | .verthorz => 4
    | .snowflake => min numB (max d.current.lines (min numB (d.current.lines * 2)))
    | .rotational => min numB (max d.current.lines 1)
    | .other _ => 1
  else 1

theorem mapM_pass_bbox {d : Data K} (f : Int → Int) (g : Int → K) (h : Int → Int) {x y : K} {l : List Int}
    {ps : List (Pass K)}
    (hm : (l.mapM fun k => pass d (f k) x y (g k) (h k)) = .ok ps) :
    ∀ p ∈ ps, ∃ k ∈ l, p.bbox = h k := by
  induction l generalizing ps with
  | nil => simp only [List.mapM_nil, pure, Except.pure] at hm; cases hm; simp
  | cons k l ih =>
    rw [List.mapM_cons] at hm
    obtain ⟨p1, h1, hm⟩ := except_bind_ok hm
    obtain ⟨ps', h2, hm⟩ := except_bind_ok hm
    simp only [pure, Except.pure] at hm
    cases hm
    intro p hp
    rcases List.mem_cons.mp hp with rfl | hp
    · refine ⟨k, by simp, ?_⟩
      unfold pass at h1
      obtain ⟨m, _, h1⟩ := except_bind_ok h1
      simp only [pure, Except.pure] at h1
      cases h1; rfl
    · obtain ⟨j, hj, e⟩ := ih h2 p hp
      exact ⟨j, by simp [hj], e⟩

theorem roundf_le (k : Int) (hk : 0 ≤ k) (v : K) (hv : 1 ≤ v) : roundf ((k : K) / v) ≤ k := by
  unfold roundf
  have h0 : (0 : K) ≤ k := by exact_mod_cast hk
  have : (k : K) / v ≤ k := div_le_self h0 hv
  have h2 : ⌊(k : K) / v + 1 / 2⌋ < k + 1 := by
    rw [Int.floor_lt]
    push_cast
    have : (1 : K) / 2 < 1 := by norm_num
    linarith
  omega

theorem roundf_nonneg (k : Int) (hk : 0 ≤ k) (v : K) (hv : 1 ≤ v) : 0 ≤ roundf ((k : K) / v) := by
  unfold roundf
  have h0 : (0 : K) ≤ k := by exact_mod_cast hk
  apply Int.floor_nonneg.mpr
  have : 0 ≤ (k : K) / v := div_nonneg h0 (by linarith)
  linarith [show (0 : K) < 1 / 2 by norm_num]

theorem passes_used {d : Data K} {numB : Int} {x y angle : K} {ps : List (Pass K)} {used : Int}
    (h : passes d numB x y angle = .ok (ps, used)) (hb : 32 ≤ numB)
    (hl : Small d.current ∨ ∃ n, d.current.type = .other n) :
    used = usedOf d numB ∧ 1 ≤ used ∧ ∀ p ∈ ps, p.bbox < numB → p.bbox < used := by
  unfold passes at h
  unfold usedOf
  by_cases hact : d.active = true ∧ d.num ≠ 0
  · rw [if_pos hact] at h ⊢
    have pass_bbox : ∀ {i a bb p}, pass d i x y a bb = .ok p → p.bbox = bb := by
      intro i a bb p h1
      unfold pass at h1
      obtain ⟨m, _, h1⟩ := except_bind_ok h1
      simp only [pure, Except.pure] at h1
      cases h1; rfl
    cases ht : d.current.type with
    | vertical =>
      simp only [ht] at h ⊢
      obtain ⟨p, h1, h⟩ := except_bind_ok h
      cases h
      refine ⟨rfl, by omega, ?_⟩
      intro q hq _
      simp only [List.mem_singleton] at hq
      subst hq
      rw [pass_bbox h1]; omega
    | horizontal =>
      simp only [ht] at h ⊢
      obtain ⟨p, h1, h⟩ := except_bind_ok h
      cases h
      refine ⟨rfl, by omega, ?_⟩
      intro q hq _
      simp only [List.mem_singleton] at hq
      subst hq
      rw [pass_bbox h1]; omega
    | verthorz =>
      simp only [ht] at h ⊢
      obtain ⟨p, h1, h⟩ := except_bind_ok h
      obtain ⟨p2, h2, h⟩ := except_bind_ok h
      obtain ⟨p3, h3, h⟩ := except_bind_ok h
      cases h
      refine ⟨rfl, by omega, ?_⟩
      intro q hq _
      simp only [List.mem_cons, List.not_mem_nil, or_false] at hq
      rcases hq with rfl | rfl | rfl
      · rw [pass_bbox h1]; omega
      · rw [pass_bbox h2]; omega
      · rw [pass_bbox h3]; omega
    | rotational =>
      simp only [ht] at h ⊢
      obtain ⟨ps', h1, h⟩ := except_bind_ok h
      cases h
      refine ⟨rfl, by omega, ?_⟩
      intro p hp hlt
      obtain ⟨k, hk, e⟩ := mapM_pass_bbox _ _ _ h1 p hp
      rw [mem_cRange] at hk
      have h3 := roundf_le k (by omega) _ (le_max_left (1 : K)
        ((d.current.lines : K) * (if d.current.type = .snowflake then 2 else 1) / (numB : K)))
      rw [e] at hlt ⊢
      generalize roundf ((k : K) / _) = r at h3 hlt ⊢
      omega
    | snowflake =>
      simp only [ht] at h ⊢
      obtain ⟨ps1, h1, h⟩ := except_bind_ok h
      obtain ⟨ps2, h2, h⟩ := except_bind_ok h
      cases h
      have hl2 : 2 ≤ d.current.lines := by
        rcases hl with hl | ⟨n, hl⟩
        · exact hl.1
        · rw [ht] at hl; cases hl
      refine ⟨rfl, by omega, ?_⟩
      intro p hp hlt
      rcases List.mem_append.mp hp with hp | hp
      · obtain ⟨k, hk, e⟩ := mapM_pass_bbox _ _ _ h1 p hp
        rw [mem_cRange] at hk
        have h3 := roundf_le k (by omega) _ (le_max_left (1 : K)
          ((d.current.lines : K) * 2 / (numB : K)))
        rw [e] at hlt ⊢
        generalize roundf ((k : K) / _) = r at h3 hlt ⊢
        omega
      · obtain ⟨k, hk, e⟩ := mapM_pass_bbox _ _ _ h2 p hp
        rw [mem_cRange] at hk
        have h3 := roundf_le k (by omega) _ (le_max_left (1 : K)
          ((d.current.lines : K) * (if d.current.type = .snowflake then 2 else 1) / (numB : K)))
        rw [e] at hlt ⊢
        generalize roundf ((k : K) / _) = r at h3 hlt ⊢
        omega
    | other n =>
      simp only [ht] at h ⊢
      cases h
      exact ⟨rfl, by omega, by simp⟩
  · rw [if_neg hact] at h ⊢
    cases h
    exact ⟨rfl, by omega, by simp⟩

theorem passFold_sound {b : Build} {env : Env K} {trig : Trig K} (he : env.Valid) {a : Args K} {c0 : Canvas}
    (ps : List (Pass K)) (s s' : FSurf K) (c : Canvas)
    (h : ps.foldlM (drawPass b env a) s = .ok s') (hs : Sound b env trig s c) :
    ∃ c', Sound b env trig s' c' ∧ s'.symm = s.symm ∧ s'.numB = s.numB ∧ s'.boxCap = s.boxCap ∧
      ∀ n, (∀ p ∈ ps, p.bbox < s.numB → p.bbox < n) → Covered c0 c s.boxes n →
        Covered c0 c' s'.boxes n := by
  induction ps generalizing s c with
  | nil =>
    simp only [List.foldlM_nil, pure, Except.pure] at h
    cases h
    exact ⟨c, hs, rfl, rfl, rfl, fun _ _ h => h⟩
  | cons p ps ih =>
    rw [List.foldlM_cons] at h
    obtain ⟨s1, h1, h⟩ := except_bind_ok h
    unfold drawPass at h1
    obtain ⟨⟨m, s1'⟩, h2, h1⟩ := except_bind_ok h1
    cases h1
    obtain ⟨c1, hs1, e1, e2, e3, _, hc1⟩ := drawInternal_sound (c0 := c0) he h2 hs
    obtain ⟨c', hs', f1, f2, f3, hc'⟩ := ih s1' c1 h hs1
    refine ⟨c', hs', f1.trans e1, f2.trans e2, f3.trans e3, ?_⟩
    intro n hn hcov
    refine hc' n ?_ (hc1 n (fun _ hlt => hn p (by simp) hlt) hcov)
    intro q hq hlt
    rw [e2] at hlt
    exact hn q (by simp [hq]) hlt

theorem drawDab_sound {b : Build} {env : Env K} {trig : Trig K} (he : env.Valid) {a : Args K} {c0 : Canvas}
    {s s' : FSurf K} {m : Bool} {c : Canvas} (h : drawDab b env s a = .ok (m, s'))
    (hs : Sound b env trig s c) :
    ∃ c', Sound b env trig s' c' ∧ s'.symm = s.symm ∧ s'.numB = s.numB ∧ s'.boxCap = s.boxCap ∧
      (¬ Invisible a → s'.dirty = min s.numB (usedOf s.symm s.numB)) ∧
      (Invisible a → s'.dirty = 0 ∧ s'.boxes = s.boxes) ∧
      (∀ n, Invisible a ∨ usedOf s.symm s.numB ≤ n → Covered c0 c s.boxes n →
        Covered c0 c' s'.boxes n) := by
  unfold drawDab at h
  obtain ⟨⟨m1, s1⟩, h1, h⟩ := except_bind_ok h
  obtain ⟨c1, hs1, e1, e2, e3, e4, hc1⟩ := drawInternal_sound (c0 := c0) he h1 hs
  simp only at h
  cases m1 with
  | false =>
    simp only [Bool.false_eq_true, if_false, pure, Except.pure] at h
    cases h
    refine ⟨c1, ⟨hs1.stands, hs1.proper, hs1.cap, hs1.big, hs1.symm⟩, e1, e2, e3, ?_, ?_, ?_⟩
    · intro hv
      exfalso
      rcases drawInternal_cases h1 with ⟨_, _, hp⟩ | ⟨h, _⟩
      · rcases invisible_iff_nothing_queued a with ⟨h, _⟩ | ⟨h, _⟩ | ⟨_, op, h, _⟩
        · rw [h] at hp; cases hp
        · exact hv h
        · rw [h] at hp; cases hp
      · cases h
    · intro _
      rcases drawInternal_cases h1 with ⟨_, rfl, hp⟩ | ⟨h, _⟩
      · have := hs.big
        exact ⟨by simp only; omega, rfl⟩
      · cases h
    · intro n _ hcov
      exact hc1 n (by simp) hcov
  | true =>
    simp only [if_true] at h
    obtain ⟨⟨ps, used⟩, h2, h⟩ := except_bind_ok h
    obtain ⟨s2, h3, h⟩ := except_bind_ok h
    simp only [pure, Except.pure] at h
    cases h
    have hvis : ¬ Invisible a := by
      intro hinv
      rcases drawInternal_cases h1 with ⟨h, _⟩ | ⟨_, op, surf, hp, _⟩
      · cases h
      · rcases invisible_iff_nothing_queued a with ⟨h, _⟩ | ⟨_, h⟩ | ⟨h, _⟩
        · rw [h] at hp; cases hp
        · rw [h] at hp; cases hp
        · exact h hinv
    obtain ⟨hu, hu1, hps⟩ := passes_used h2 hs1.big hs1.symm.small
    rw [e1, e2] at hu
    obtain ⟨c', hs', f1, f2, f3, hc'⟩ := passFold_sound (c0 := c0) he ps s1 s2 c1 h3 hs1
    refine ⟨c', ⟨hs'.stands, hs'.proper, hs'.cap, hs'.big, hs'.symm⟩, f1.trans e1, f2.trans e2, f3.trans e3,
      ?_, ?_, ?_⟩
    · intro _
      simp only [f2.trans e2, hu]
    · intro hinv; exact absurd hinv hvis
    · intro n hn hcov
      have hn := hn.resolve_left hvis
      exact hc' n (fun p hp hlt => lt_of_lt_of_le (hps p hp hlt) (by omega))
        (hc1 n (fun _ _ => by omega) hcov)

/-! ### Sampling, beginning, ending -/

theorem beginAtomic_sound {b : Build} {env : Env K} {trig : Trig K} {alloc balloc : Int → Bool}
    {s s' : FSurf K} {c : Canvas} (h : beginAtomic trig alloc balloc s = .ok s')
    (hs : Sound b env trig s c) :
    Sound b env trig s' c ∧ s'.dirty = 0 ∧ s'.surf = s.surf ∧ update trig alloc s.symm = .ok s'.symm := by
  unfold beginAtomic at h
  obtain ⟨symm, h1, h⟩ := except_bind_ok h
  unfold prepareBoxes at h
  simp only at h
  have hz : Proper Rect.zero := Or.inl rfl
  have hi : Inv trig symm := by
    obtain ⟨d', h2, h3, _⟩ := update_inv trig alloc hs.symm
    rw [h1] at h2; cases h2; exact h3
  generalize symm.current.lines * (if symm.current.type = .snowflake then 2 else 1) = desired at h
  have hbig := hs.big
  by_cases h2 : desired > s.numB
  · rw [if_pos h2] at h
    by_cases h3 : 0 ≤ toI32 ((desired + 10) * 16) ∧ balloc (toI32 ((desired + 10) * 16)) = true
    · rw [if_pos h3] at h
      simp only at h
      split_ifs at h with h4
      cases h
      refine ⟨⟨hs.stands, ?_, ?_, ?_, hi⟩, rfl, rfl, h1⟩
      · intro i
        simp only
        split_ifs <;> exact hz
      · have := h3.1
        simp only
        unfold toI32 at this ⊢
        omega
      · simp only
        omega
    · rw [if_neg h3] at h
      simp only at h
      split_ifs at h with h4
      cases h
      refine ⟨⟨hs.stands, ?_, hs.cap, hs.big, hi⟩, rfl, rfl, h1⟩
      intro i
      simp only
      split_ifs
      · exact hz
      · exact hs.proper i
  · rw [if_neg h2] at h
    simp only at h
    split_ifs at h with h4
    cases h
    refine ⟨⟨hs.stands, ?_, hs.cap, hs.big, hi⟩, rfl, rfl, h1⟩
    intro i
    simp only
    split_ifs
    · exact hz
    · exact hs.proper i

theorem expandRect_sub (r o : Rect) (h : Proper r) :
    Sub r (r.expandRect o) ∧ Proper (r.expandRect o) := by
  unfold Rect.expandRect
  have h1 := Rect.expandPoint_is_hull r o.x o.y h
  have h2 := Rect.expandPoint_is_hull _ (o.x + o.width - 1) (o.y + o.height - 1) (Or.inr h1.2)
  exact ⟨fun X Y hh => h2.1.1 X Y (h1.1.1 X Y hh), Or.inr h2.2⟩

theorem expandRect_has (r o : Rect) (h : Proper r) (ho : Proper o) (X Y : Int) (hh : Has o X Y) :
    Has (r.expandRect o) X Y := by
  rcases ho with ho | ho
  · unfold Has at hh; omega
  · exact (Rect.expandRect_is_hull r o h ho).1.2.1 X Y hh

theorem outFold_sound (boxes : Int → Rect) (hb : ∀ i, Proper (boxes i)) (boxCap n m : Int)
    (l : List Int) (out out' : Int → Rect)
    (ho : ∀ i, 0 ≤ i → i < n → i < m → Proper (out i))
    (hl : ∀ i ∈ l, i < m)
    (h : l.foldlM (fun (out : Int → Rect) i =>
      if 0 ≤ outIndex n m i ∧ outIndex n m i < n ∧ i < boxCap then
        .ok (setBox out (outIndex n m i) ((out (outIndex n m i)).expandRect (boxes i)))
      else .error .outOfBounds) out = (Except.ok out' : Except Fault (Int → Rect))) :
    (∀ i, 0 ≤ i → i < n → i < m → Proper (out' i) ∧ Sub (out i) (out' i)) ∧
    ∀ i ∈ l, ∃ k, 0 ≤ k ∧ k < n ∧ k < m ∧ Sub (boxes i) (out' k) := by
  induction l generalizing out with
  | nil =>
    simp only [List.foldlM_nil, pure, Except.pure] at h
    cases h
    exact ⟨fun i h0 h1 h2 => ⟨ho i h0 h1 h2, fun _ _ h => h⟩, by simp⟩
  | cons i l ih =>
    rw [List.foldlM_cons] at h
    obtain ⟨out1, h1, h⟩ := except_bind_ok h
    split_ifs at h1 with hk
    cases h1
    have hkm : outIndex n m i < m := by
      by_cases hmn : m > n
      · omega
      · have := hl i (by simp)
        unfold outIndex at *
        rw [if_neg hmn] at *
        exact this
    have hp := expandRect_sub (out (outIndex n m i)) (boxes i) (ho _ hk.1 hk.2.1 hkm)
    have ho1 : ∀ j, 0 ≤ j → j < n → j < m →
        Proper (setBox out (outIndex n m i) ((out (outIndex n m i)).expandRect (boxes i)) j) ∧
        Sub (out j) (setBox out (outIndex n m i) ((out (outIndex n m i)).expandRect (boxes i)) j) := by
      intro j h0 h1 h2
      simp only [setBox]
      split_ifs with hj
      · rw [hj]; exact ⟨hp.2, hp.1⟩
      · exact ⟨ho j h0 h1 h2, fun _ _ h => h⟩
    obtain ⟨g1, g2⟩ := ih _ (fun j h0 h1 h2 => (ho1 j h0 h1 h2).1) (fun j hj => hl j (by simp [hj])) h
    refine ⟨?_, ?_⟩
    · intro j h0 h1 h2
      exact ⟨(g1 j h0 h1 h2).1, fun X Y hh => (g1 j h0 h1 h2).2 X Y ((ho1 j h0 h1 h2).2 X Y hh)⟩
    · intro j hj
      rcases List.mem_cons.mp hj with rfl | hj
      · refine ⟨outIndex n m j, hk.1, hk.2.1, hkm, ?_⟩
        intro X Y hh
        apply (g1 _ hk.1 hk.2.1 hkm).2
        simp only [setBox, if_true]
        exact expandRect_has _ _ (ho _ hk.1 hk.2.1 hkm) (hb j) X Y hh
      · exact g2 j hj

theorem outRects_sound {boxes : Int → Rect} (hb : ∀ i, Proper (boxes i)) {boxCap n m : Int}
    {old : Int → Rect} {rs : List Rect} (h : outRects boxes boxCap n m old = .ok rs) :
    (rs.length : Int) = max 0 (min n m) ∧
    ∀ i, 0 ≤ i → i < m → ∃ r ∈ rs, Sub (boxes i) r := by
  unfold outRects at h
  obtain ⟨out, h1, h2⟩ := except_bind_ok h
  clear h
  simp only [pure, Except.pure] at h2
  cases h2
  have := outFold_sound boxes hb boxCap n m (cRange 0 m) _ out ?_ ?_ h1
  · refine ⟨?_, ?_⟩
    · simp only [cRange, List.length_map, List.length_range]; omega
    · intro i h0 h1
      obtain ⟨k, hk0, hk1, hk2, hsub⟩ := this.2 i (mem_cRange.mpr ⟨h0, h1⟩)
      exact ⟨out k, List.mem_map.mpr ⟨k, mem_cRange.mpr ⟨hk0, by omega⟩, rfl⟩, hsub⟩
  · intro i h0 h1 h2
    rw [if_pos ⟨h0, by omega⟩]
    exact Or.inl rfl
  · intro i hi
    exact (mem_cRange.mp hi).2

/-! ### Sessions -/

/-- The processing order of `end_atomic` is a rearrangement, and the number of symmetry lines is
below 2^20 (more than that corrupts memory, see `Verif.Symm.huge_line_count_writes_out_of_bounds`). -/
def Event.Ok : Event K → Prop
  | .endAtomic order _ => ∀ l, (order l).Perm l
  | .setSymmetry _ _ _ _ _ lines => lines ≤ 1048576
  | _ => True

theorem usedOf_le (d : Data K) {numB : Int} (h : 32 ≤ numB) : usedOf d numB ≤ numB := by
  unfold usedOf
  split
  · split <;> omega
  · omega

theorem endAtomic_sound {b : Build} {env : Env K} {trig : Trig K} {order : List TileIndex → List TileIndex}
    (ho : ∀ l, (order l).Perm l) {roi : Option (Int × (Int → Rect))} {s s' : FSurf K} {c : Canvas}
    {rs : List Rect} (h : endAtomic env order roi s = .ok (rs, s')) (hs : Sound b env trig s c) :
    Sound b env trig s' c ∧ s'.surf.canvas = c ∧
      ∀ n old, roi = some (n, old) → (rs.length : Int) = max 0 (min n s.dirty) ∧
        ∀ i, 0 ≤ i → i < s.dirty → ∃ r ∈ rs, Sub (s.boxes i) r := by
  obtain ⟨st, hst⟩ := hs.stands
  obtain ⟨surf, st', h1, h2, _, _, h3⟩ := Surf.stands_end hst order ho
  unfold endAtomic at h
  rw [h1] at h
  simp only [bind, Except.bind, pure, Except.pure] at h
  cases roi with
  | none =>
    cases h
    exact ⟨⟨⟨st', h2⟩, hs.proper, hs.cap, hs.big, hs.symm⟩, h3, fun _ _ h => by cases h⟩
  | some r =>
    obtain ⟨n, old⟩ := r
    cases hr : outRects s.boxes s.boxCap n s.dirty old with
    | error e => simp only [hr, reduceCtorEq] at h
    | ok l =>
      simp only [hr] at h
      cases h
      refine ⟨⟨⟨st', h2⟩, hs.proper, hs.cap, hs.big, hs.symm⟩, h3, ?_⟩
      intro n' old' e
      cases e
      exact outRects_sound hs.proper hr

theorem sample_sound {b : Build} {env : Env K} {trig : Trig K} {s : FSurf K} {c : Canvas}
    {ts : List TileIndex} {vs : List (Except Fault Tile)} {surf : Surf (Op K) (Except Fault Tile)}
    (h : Surf.sample (kind env) s.surf ts = .ok (vs, surf)) (hs : Sound b env trig s c) :
    Sound b env trig { s with surf := surf } c := by
  obtain ⟨st, hst⟩ := hs.stands
  obtain ⟨s', st', h1, h2, _⟩ := Surf.stands_sample ts s.surf st c hst
  rw [h1] at h
  cases h
  exact ⟨⟨st', h2⟩, hs.proper, hs.cap, hs.big, hs.symm⟩

theorem step_sound {b : Build} {env : Env K} (he : env.Valid) {trig : Trig K} {s s' : FSurf K} {c : Canvas}
    {e : Event K} (ho : e.Ok) {rs : List Rect} (h : step b env trig s e = .ok (rs, s'))
    (hs : Sound b env trig s c) : ∃ c', Sound b env trig s' c' := by
  cases e with
  | setSymmetry active cx cy angle type lines =>
    cases h
    exact ⟨c, hs.stands, hs.proper, hs.cap, hs.big, setPending_inv trig hs.symm active cx cy angle type ho⟩
  | beginAtomic alloc balloc =>
    obtain ⟨s1, h1, h2⟩ := except_bind_ok (show (beginAtomic trig alloc balloc s >>= fun x => .ok ([], x)) = _ from h)
    cases h2
    exact ⟨c, (beginAtomic_sound h1 hs).1⟩
  | dab a =>
    obtain ⟨⟨m, s1⟩, h1, h2⟩ := except_bind_ok (show (drawDab b env s a >>= fun x => .ok ([], x.2)) = _ from h)
    cases h2
    obtain ⟨c', h, _⟩ := drawDab_sound (c0 := c) he h1 hs
    exact ⟨c', h⟩
  | sample ts =>
    unfold step at h
    obtain ⟨⟨vs, s1⟩, h1, h2⟩ := except_bind_ok h
    cases h2
    exact ⟨c, sample_sound h1 hs⟩
  | endAtomic order roi =>
    exact ⟨c, (endAtomic_sound ho h hs).1⟩

theorem run_cons {b : Build} {env : Env K} {trig : Trig K} {s s' : FSurf K} {e : Event K} {es : List (Event K)}
    (h : run b env trig s (e :: es) = .ok s') :
    ∃ rs s1, step b env trig s e = .ok (rs, s1) ∧ run b env trig s1 es = .ok s' := by
  unfold run at h
  rw [List.foldlM_cons] at h
  obtain ⟨s1, h1, h⟩ := except_bind_ok h
  obtain ⟨⟨rs, s2⟩, h2, h1⟩ := except_bind_ok h1
  cases h1
  exact ⟨rs, s2, h2, h⟩

theorem run_append {b : Build} {env : Env K} {trig : Trig K} {s s' : FSurf K} {es fs : List (Event K)}
    (h : run b env trig s (es ++ fs) = .ok s') :
    ∃ s1, run b env trig s es = .ok s1 ∧ run b env trig s1 fs = .ok s' := by
  unfold run at h
  rw [List.foldlM_append] at h
  exact except_bind_ok h

theorem run_sound {b : Build} {env : Env K} (he : env.Valid) {trig : Trig K} (es : List (Event K))
    (s s' : FSurf K) (c : Canvas) (ho : ∀ e ∈ es, e.Ok) (h : run b env trig s es = .ok s')
    (hs : Sound b env trig s c) : ∃ c', Sound b env trig s' c' := by
  induction es generalizing s c with
  | nil => cases h; exact ⟨c, hs⟩
  | cons e es ih =>
    obtain ⟨rs, s1, h1, h2⟩ := run_cons h
    obtain ⟨c1, hs1⟩ := step_sound he (ho e (by simp)) h1 hs
    exact ih s1 c1 (fun e he => ho e (by simp [he])) h2 hs1

theorem init_sound (b : Build) (env : Env K) (trig : Trig K) (alloc : Int → Bool)
    (garbage : Int → Transform K) (dirty : Int) (canvas : Canvas) :
    ∃ s, init b trig alloc garbage dirty canvas = .ok s ∧ Sound b env trig s canvas ∧
      s.surf.canvas = canvas := by
  obtain ⟨d, h1, h2⟩ := default_inv trig alloc garbage
  obtain ⟨surf, st, h3, h4, h5⟩ := Surf.init_stands b (kind env) canvas
  refine ⟨⟨surf, d, fun _ => Rect.zero, 32, 32, dirty⟩, ?_, ⟨⟨st, h4⟩, ?_, ?_, ?_, h2⟩, h5⟩
  · simp only [init, h1, h3, bind, Except.bind, pure, Except.pure]
  · intro i; exact Or.inl rfl
  · exact le_refl _
  · exact le_refl _

end Verif.Full
