import Verif.Spec.FixedSurface
import Mathlib.Tactic.Ring
import Mathlib.Tactic.Linarith

namespace Verif.Fixed

theorem f32OfNat_small {n : Nat} (h : n ≤ 2 ^ 24) : f32OfNat n = n := by
  unfold f32OfNat
  by_cases h2 : n < 2 ^ 24
  · rw [if_pos h2]
  · have : n = 2 ^ 24 := by omega
    subst this
    decide +kernel

/-- Number of tiles along a side of `len` pixels. -/
def ceilTiles (len : Int) : Int := (len + 63) / 64

theorem tilesFor_small {len : Int} (h0 : 0 < len) (h : len ≤ 2 ^ 24) :
    tilesFor len = ceilTiles len := by
  unfold tilesFor ceilTiles
  rw [f32OfNat_small (by omega)]
  omega

theorem lt_ceilTiles {x len : Int} : x < ceilTiles len ↔ 64 * x < len := by
  unfold ceilTiles
  omega

/-- The layout facts the code relies on. -/
structure Wf (s : Surface) : Prop where
  w0 : 0 < s.width
  h0 : 0 < s.height
  tw : s.tilesWidth = ceilTiles s.width
  th : s.tilesHeight = ceilTiles s.height
  tw0 : 0 < s.tilesWidth
  th0 : 0 < s.tilesHeight
  small : s.tilesWidth * s.tilesHeight < 2 ^ 40
  cells : s.bufferCells = s.tilesWidth.toNat * s.tilesHeight.toNat * tileCells
  blank : ∀ i, s.nullTile i = 0

theorem outside_iff {s : Surface} (h : Wf s) (t : TileIndex) :
    outside s t = false ↔ InImage s.width s.height t := by
  have h1 := @lt_ceilTiles t.x s.width
  have h2 := @lt_ceilTiles t.y s.height
  rw [← h.tw] at h1
  rw [← h.th] at h2
  unfold outside InImage
  rw [← h1, ← h2]
  simp only [Bool.or_eq_false_iff, decide_eq_false_iff_not]
  omega

/-- Offset of a tile, without wrap-around. -/
def off (s : Surface) (t : TileIndex) : Nat :=
  (s.tilesWidth.toNat * t.y.toNat + t.x.toNat) * tileCells

theorem index_lt {w h x y : Nat} (hx : x < w) (hy : y < h) : w * y + x < w * h := by
  calc w * y + x < w * y + w := by omega
    _ = w * (y + 1) := by ring
    _ ≤ w * h := Nat.mul_le_mul_left _ hy

theorem start_inside {s : Surface} (h : Wf s) {t : TileIndex} (ht : outside s t = false) :
    start s t = .block (off s t) ∧ off s t + tileCells ≤ s.bufferCells := by
  have hw := h.tw0
  have hh := h.th0
  have hsm := h.small
  unfold outside at ht
  simp only [Bool.or_eq_false_iff, decide_eq_false_iff_not] at ht
  obtain ⟨⟨⟨hx, hy⟩, hx0⟩, hy0⟩ := ht
  have hidx : s.tilesWidth.toNat * t.y.toNat + t.x.toNat
      < s.tilesWidth.toNat * s.tilesHeight.toNat := index_lt (by omega) (by omega)
  have hprod : s.tilesWidth.toNat * s.tilesHeight.toNat < 2 ^ 40 := by
    have : ((s.tilesWidth.toNat * s.tilesHeight.toNat : Nat) : Int) < 2 ^ 40 := by
      push_cast
      rw [Int.toNat_of_nonneg hw.le, Int.toNat_of_nonneg hh.le]
      exact hsm
    exact_mod_cast this
  have hwle : s.tilesWidth.toNat ≤ s.tilesWidth.toNat * s.tilesHeight.toNat :=
    Nat.le_mul_of_pos_right _ (by omega)
  constructor
  · unfold start
    rw [if_neg (by
      unfold outside
      simp only [Bool.or_eq_true, decide_eq_true_eq]
      omega)]
    unfold off tileBytes tileCells sz
    generalize hW : s.tilesWidth.toNat = W at *
    generalize hH : s.tilesHeight.toNat = H at *
    generalize hX : t.x.toNat = X at *
    generalize hY : t.y.toNat = Y at *
    have hXW : X < W := by omega
    have e1 : W * 32768 % 2 ^ 64 = W * 32768 := Nat.mod_eq_of_lt (by omega)
    have e2 : X * 32768 % 2 ^ 64 = X * 32768 := Nat.mod_eq_of_lt (by omega)
    have e3 : W * 32768 * Y = (W * Y) * 32768 := by ring
    generalize hp : W * Y = p at *
    have e4 : p * 32768 % 2 ^ 64 = p * 32768 := Nat.mod_eq_of_lt (by omega)
    simp only [e1, e2, e3, e4]
    rw [Nat.mod_eq_of_lt (by omega)]
    congr 1
    omega
  · rw [h.cells]
    unfold off
    have : (s.tilesWidth.toNat * t.y.toNat + t.x.toNat + 1) * tileCells
        ≤ s.tilesWidth.toNat * s.tilesHeight.toNat * tileCells := Nat.mul_le_mul_right _ hidx
    calc (s.tilesWidth.toNat * t.y.toNat + t.x.toNat) * tileCells + tileCells
        = (s.tilesWidth.toNat * t.y.toNat + t.x.toNat + 1) * tileCells := by ring
      _ ≤ _ := this

theorem start_outside {s : Surface} {t : TileIndex} (ht : outside s t = true) :
    start s t = .scratch := by
  unfold start
  rw [if_pos ht]

theorem index_inj {w x y x' y' : Nat} (hx : x < w) (hx' : x' < w)
    (h : w * y + x = w * y' + x') : x = x' ∧ y = y' := by
  have h0 : 0 < w := by omega
  have h1 : (w * y + x) / w = y := by
    rw [Nat.mul_add_div h0, Nat.div_eq_of_lt hx]; rfl
  have h2 : (w * y' + x') / w = y' := by
    rw [Nat.mul_add_div h0, Nat.div_eq_of_lt hx']; rfl
  rw [h, h2] at h1
  subst h1
  exact ⟨by omega, rfl⟩

theorem tile_slot {a b i j c : Nat} (hi : i < c) (hj : j < c) (h : a * c + i = b * c + j) : a = b := by
  have h0 : 0 < c := by omega
  have h1 : (a * c + i) / c = a := by
    rw [Nat.mul_comm a c, Nat.mul_add_div h0, Nat.div_eq_of_lt hi]; rfl
  have h2 : (b * c + j) / c = b := by
    rw [Nat.mul_comm b c, Nat.mul_add_div h0, Nat.div_eq_of_lt hj]; rfl
  rw [h, h2] at h1
  exact h1.symm

theorem off_inj {s : Surface} {t u : TileIndex}
    (ht : outside s t = false) (hu : outside s u = false) {i j : Nat} (hi : i < tileCells)
    (hj : j < tileCells) (h : off s t + i = off s u + j) : t = u ∧ i = j := by
  unfold outside at ht hu
  simp only [Bool.or_eq_false_iff, decide_eq_false_iff_not] at ht hu
  unfold off at h
  have e := tile_slot hi hj h
  have e2 := index_inj (by omega) (by omega) e
  rw [e] at h
  refine ⟨?_, by omega⟩
  cases t; cases u
  simp only [TileIndex.mk.injEq] at *
  omega

/-- The block holds the canvas. -/
structure Holds (s : Surface) (c : Canvas) : Prop where
  wf : Wf s
  inside : ∀ t, InImage s.width s.height t → ∀ i, i < tileCells → s.buffer (off s t + i) = c t i
  around : ∀ t, ¬ InImage s.width s.height t → ∀ i, c t i = 0

/-- Running a client on a tile of the image. -/
theorem run_inside {w h : Int} {tw th : Int} {n : Nat} {nt : Nat → Nat} {o : Nat}
    (ho : o + tileCells ≤ n) (cl : Client) :
    cl.InTile → ∀ (b : Nat → Nat) (f : Nat → Nat), (∀ i, i < tileCells → b (o + i) = f i) →
    ∃ b', cl.run (.block o) ⟨tw, th, w, h, n, b, nt⟩
        = .ok ((cl.onTile f).1, ⟨tw, th, w, h, n, b', nt⟩) ∧
      (∀ i, i < tileCells → b' (o + i) = (cl.onTile f).2 i) ∧
      (∀ k, (∀ i, i < tileCells → k ≠ o + i) → b' k = b k) := by
  induction cl with
  | done =>
    intro _ b f hf
    exact ⟨b, rfl, hf, fun _ _ => rfl⟩
  | read i k ih =>
    intro hin b f hf
    obtain ⟨hi, hk⟩ := hin
    obtain ⟨b', hr, h1, h2⟩ := ih (f i) (hk _) b f hf
    refine ⟨b', ?_, h1, h2⟩
    simp only [Client.run, readCell]
    rw [if_pos (by show o + i < n; omega)]
    show (do
      let (l, s) ← (k (b (o + i))).run (.block o) _
      pure (b (o + i) :: l, s) : Except Fault _) = _
    rw [hf i hi, hr]
    rfl
  | write i v k ih =>
    intro hin b f hf
    obtain ⟨hi, hk⟩ := hin
    obtain ⟨b', hr, h1, h2⟩ := ih hk (fun k => if k = o + i then v else b k)
      (fun j => if j = i then v else f j) (by
        intro j hj
        by_cases hji : j = i
        · simp [hji]
        · have : ¬ o + j = o + i := by omega
          simp only [if_neg this, if_neg hji]
          exact hf j hj)
    refine ⟨b', ?_, h1, ?_⟩
    · simp only [Client.run, writeCell]
      rw [if_pos (by show o + i < n; omega)]
      exact hr
    · intro q hq
      rw [h2 q hq]
      simp only [if_neg (hq i hi)]

/-- Running a client on the scratch tile leaves the block alone. -/
theorem run_outside {w h : Int} {tw th : Int} {n : Nat} {b : Nat → Nat} (cl : Client) :
    cl.InTile → ∀ (nt : Nat → Nat),
    ∃ nt', cl.run .scratch ⟨tw, th, w, h, n, b, nt⟩
        = .ok ((cl.onTile nt).1, ⟨tw, th, w, h, n, b, nt'⟩) := by
  induction cl with
  | done => exact fun _ nt => ⟨nt, rfl⟩
  | read i k ih =>
    intro hin nt
    obtain ⟨hi, hk⟩ := hin
    obtain ⟨nt', hr⟩ := ih (nt i) (hk _) nt
    refine ⟨nt', ?_⟩
    simp only [Client.run, readCell]
    rw [if_pos hi]
    show (do
      let (l, s) ← (k (nt i)).run .scratch _
      pure (nt i :: l, s) : Except Fault _) = _
    rw [hr]
    rfl
  | write i v k ih =>
    intro hin nt
    obtain ⟨hi, hk⟩ := hin
    obtain ⟨nt', hr⟩ := ih hk (fun j => if j = i then v else nt j)
    refine ⟨nt', ?_⟩
    simp only [Client.run, writeCell]
    rw [if_pos hi]
    exact hr

theorem request_holds {s : Surface} {c : Canvas} (hs : Holds s c) (t : TileIndex) (cl : Client)
    (hc : cl.InTile) :
    ∃ s', request s t cl = .ok ((canvasRequest s.width s.height c t cl).1, s') ∧
      Holds s' (canvasRequest s.width s.height c t cl).2 ∧
      s'.width = s.width ∧ s'.height = s.height := by
  cases ho : outside s t with
  | false =>
    have hin := (outside_iff hs.wf t).mp ho
    obtain ⟨hst, hbd⟩ := start_inside hs.wf ho
    obtain ⟨b', hr, h1, h2⟩ := run_inside (w := s.width) (h := s.height) (tw := s.tilesWidth)
      (th := s.tilesHeight) (nt := s.nullTile) hbd cl hc s.buffer (c t)
      (hs.inside t hin)
    refine ⟨⟨s.tilesWidth, s.tilesHeight, s.width, s.height, s.bufferCells, b', s.nullTile⟩,
      ?_, ?_, rfl, rfl⟩
    · unfold request
      rw [hst]
      have : cl.run (.block (off s t)) s = _ := hr
      rw [this]
      show (Except.ok _ : Except Fault _) = _
      congr 2
      unfold finish
      have : outside ⟨s.tilesWidth, s.tilesHeight, s.width, s.height, s.bufferCells, b', s.nullTile⟩ t
        = false := ho
      rw [this]
      rfl
    · refine ⟨⟨hs.wf.w0, hs.wf.h0, hs.wf.tw, hs.wf.th, hs.wf.tw0, hs.wf.th0, hs.wf.small,
        hs.wf.cells, hs.wf.blank⟩, ?_, ?_⟩
      · intro u hu i hi
        unfold canvasRequest
        by_cases hut : u = t
        · subst hut
          simp only [hin, and_self, if_true]
          exact h1 i hi
        · simp only [hut, false_and, if_false]
          rw [← hs.inside u hu i hi]
          apply h2
          intro j hj he
          have hou := (outside_iff hs.wf u).mpr hu
          exact hut (off_inj hou ho hi hj he).1
      · intro u hu i
        unfold canvasRequest
        have : ¬ (u = t ∧ InImage s.width s.height t) := by
          rintro ⟨h1, h2⟩; subst h1; exact hu h2
        simp only [if_neg this]
        exact hs.around u hu i
  | true =>
    have hin : ¬ InImage s.width s.height t := by
      intro h
      have := (outside_iff hs.wf t).mpr h
      rw [ho] at this
      exact absurd this (by decide)
    obtain ⟨nt', hr⟩ := run_outside (w := s.width) (h := s.height) (tw := s.tilesWidth)
      (th := s.tilesHeight) (n := s.bufferCells) (b := s.buffer) cl hc s.nullTile
    have hn : s.nullTile = c t := by
      funext i
      rw [hs.wf.blank i, hs.around t hin i]
    refine ⟨⟨s.tilesWidth, s.tilesHeight, s.width, s.height, s.bufferCells, s.buffer, fun _ => 0⟩,
      ?_, ?_, rfl, rfl⟩
    · unfold request
      rw [start_outside ho]
      have : cl.run .scratch s = _ := hr
      rw [this]
      show (Except.ok _ : Except Fault _) = _
      unfold canvasRequest
      rw [hn]
      congr 2
      unfold finish
      have : outside ⟨s.tilesWidth, s.tilesHeight, s.width, s.height, s.bufferCells, s.buffer, nt'⟩ t
        = true := ho
      rw [this]
      rfl
    · refine ⟨⟨hs.wf.w0, hs.wf.h0, hs.wf.tw, hs.wf.th, hs.wf.tw0, hs.wf.th0, hs.wf.small,
        hs.wf.cells, fun _ => rfl⟩, ?_, ?_⟩
      · intro u hu i hi
        unfold canvasRequest
        simp only [hin, and_false, if_false]
        exact hs.inside u hu i hi
      · intro u hu i
        unfold canvasRequest
        simp only [hin, and_false, if_false]
        exact hs.around u hu i

theorem requests_holds (rs : List (TileIndex × Client)) :
    ∀ {s : Surface} {c : Canvas}, Holds s c → (∀ r ∈ rs, r.2.InTile) →
    ∃ s', requests s rs = .ok ((canvasRequests s.width s.height c rs).1, s') ∧
      Holds s' (canvasRequests s.width s.height c rs).2 ∧
      s'.width = s.width ∧ s'.height = s.height := by
  induction rs with
  | nil => intro s c hs _; exact ⟨s, rfl, hs, rfl, rfl⟩
  | cons r rs ih =>
    intro s c hs hc
    obtain ⟨t, cl⟩ := r
    obtain ⟨s1, e1, h1, hw, hh⟩ := request_holds hs t cl (hc (t, cl) (by simp))
    obtain ⟨s2, e2, h2, hw2, hh2⟩ := ih h1 (fun r hr => hc r (by simp [hr]))
    rw [hw, hh] at e2 h2
    refine ⟨s2, ?_, h2, hw2.trans hw, hh2.trans hh⟩
    simp only [requests]
    rw [e1]
    show (do
      let (ls, s) ← requests s1 rs
      pure (_ :: ls, s) : Except Fault _) = _
    rw [e2]
    rfl

theorem chk_ok {z : Int} (h1 : intMin ≤ z) (h2 : z ≤ intMax) : chk z = .ok z := by
  unfold chk; rw [if_pos ⟨h1, h2⟩]

theorem area_bound {w h : Int} (hw : 0 < w) (hh : 0 < h) :
    0 < ceilTiles w ∧ 0 < ceilTiles h ∧ 0 < ceilTiles w * ceilTiles h ∧
      ceilTiles w * ceilTiles h ≤ w * h ∧ w * h ≤ 4096 * (ceilTiles w * ceilTiles h) := by
  have a1 : 0 < ceilTiles w := by unfold ceilTiles; omega
  have a2 : 0 < ceilTiles h := by unfold ceilTiles; omega
  have b1 : ceilTiles w ≤ w := by unfold ceilTiles; omega
  have b2 : ceilTiles h ≤ h := by unfold ceilTiles; omega
  have c1 : w ≤ 64 * ceilTiles w := by unfold ceilTiles; omega
  have c2 : h ≤ 64 * ceilTiles h := by unfold ceilTiles; omega
  refine ⟨a1, a2, by positivity, ?_, ?_⟩
  · exact mul_le_mul b1 b2 a2.le hw.le
  · calc w * h ≤ (64 * ceilTiles w) * (64 * ceilTiles h) := mul_le_mul c1 c2 hh.le (by omega)
      _ = _ := by ring

theorem new_ok {w h : Int} (hw : 0 < w) (hw2 : w ≤ 2 ^ 24) (hh : 0 < h) (hh2 : h ≤ 2 ^ 24)
    (ha : w * h < 2 ^ 29) :
    new ⟨true, true, true⟩ w h = .ok (some
      { tilesWidth := ceilTiles w, tilesHeight := ceilTiles h, width := w, height := h,
        bufferCells := (ceilTiles w).toNat * (ceilTiles h).toNat * tileCells,
        buffer := fun _ => 65535, nullTile := fun _ => 0 }) := by
  obtain ⟨p1, p2, p3, p4, p5⟩ := area_bound hw hh
  have q1 : ceilTiles w ≤ 2 ^ 24 := by unfold ceilTiles; omega
  have q2 : ceilTiles h ≤ 2 ^ 24 := by unfold ceilTiles; omega
  have r1 : 64 * ceilTiles w ≥ w := by unfold ceilTiles; omega
  have r2 : 64 * ceilTiles h ≥ h := by unfold ceilTiles; omega
  have hsz : sz ((ceilTiles w * ceilTiles h).toNat * tileBytes)
      = (ceilTiles w * ceilTiles h).toNat * tileBytes := by
    unfold sz tileBytes
    exact Nat.mod_eq_of_lt (by omega)
  have hwh : 0 < w * h := by positivity
  have hsz2 : sz ((w * h * 4).toNat * 2) = (w * h * 4).toNat * 2 := by
    unfold sz
    exact Nat.mod_eq_of_lt (by omega)
  unfold new
  rw [if_neg (by simpa using hw), if_neg (by simpa using hh), if_neg (by simp)]
  rw [tilesFor_small hw hw2, tilesFor_small hh hh2]
  dsimp only
  have c1 : chk (ceilTiles w * ceilTiles h) = .ok (ceilTiles w * ceilTiles h) :=
    chk_ok (by unfold intMin; omega) (by unfold intMax; omega)
  have c2 : chk (tilePixels * ceilTiles w) = .ok (64 * ceilTiles w) :=
    chk_ok (by unfold intMin tilePixels; omega) (by unfold intMax tilePixels; omega)
  have c3 : chk (tilePixels * ceilTiles h) = .ok (64 * ceilTiles h) :=
    chk_ok (by unfold intMin tilePixels; omega) (by unfold intMax tilePixels; omega)
  have c4 : chk (w * h) = .ok (w * h) :=
    chk_ok (by unfold intMin; omega) (by unfold intMax; omega)
  have c5 : chk (w * h * 4) = .ok (w * h * 4) :=
    chk_ok (by unfold intMin; omega) (by unfold intMax; omega)
  rw [c1]
  simp only [pure, bind, Except.pure, Except.bind, hsz, c2, c3, c4, c5, hsz2]
  rw [if_neg (by simpa using r1), if_neg (by simpa using r2)]
  rw [if_neg (by unfold tileBytes; simp; omega)]
  simp only [not_true, if_false, resetNullTile]
  congr 3
  rw [Int.toNat_mul p1.le p2.le]
  unfold tileBytes tileCells
  omega

theorem new_holds {w h : Int} (hw : 0 < w) (hw2 : w ≤ 2 ^ 24) (hh : 0 < h) (hh2 : h ≤ 2 ^ 24)
    (ha : w * h < 2 ^ 29) :
    ∃ s, new ⟨true, true, true⟩ w h = .ok (some s) ∧ Holds s (freshCanvas w h) ∧
      s.width = w ∧ s.height = h := by
  obtain ⟨p1, p2, p3, p4, p5⟩ := area_bound hw hh
  refine ⟨_, new_ok hw hw2 hh hh2 ha, ⟨⟨hw, hh, rfl, rfl, p1, p2, ?_, rfl, fun _ => rfl⟩, ?_, ?_⟩,
    rfl, rfl⟩
  · show ceilTiles w * ceilTiles h < 2 ^ 40
    omega
  · intro t ht i _
    have : InImage w h t := ht
    show 65535 = freshCanvas w h t i
    unfold freshCanvas
    rw [if_pos this]
  · intro t ht i
    have : ¬ InImage w h t := ht
    unfold freshCanvas
    rw [if_neg this]

end Verif.Fixed
