import Verif.Model.GetColor
import Verif.Props.C11_Dab

/-! Helper lemmas for sampling. -/

namespace Verif.Sample
open Verif.Blend Verif.Mask Verif.Spectral Verif.Dab

variable {K : Type} [Field K] [LinearOrder K] [IsStrictOrderedRing K]

theorem shape_radius (x y radius rad1 : K) : 1 ≤ (shape x y radius rad1).radius := by
  unfold shape
  simp only
  split_ifs with h
  · exact le_refl _
  · exact not_lt.mp h

theorem shape_valid (x y radius : K) {rad1 : K} (h : 1 / 2 < rad1) : (shape x y radius rad1).Valid where
  radius := lt_of_lt_of_le one_pos (shape_radius x y radius rad1)
  hard0 := by show (0 : K) < 1 / 2; norm_num
  hard1 := by show (1 : K) / 2 ≤ 1; norm_num
  soft0 := by show (0 : K) ≤ 1 / 2; norm_num
  soft1 := by show (1 : K) / 2 ≤ 1; norm_num
  aspect := le_refl _
  circle := by show (0 : K) * 0 + 1 * 1 = 1; norm_num
  rad1 := h

/-- With hardness and softness one half the falloff is a straight line. -/
theorem opaOf_half (rr : K) (h : rr ≤ 1) : opaOf (1 / 2) (1 / 2) rr = (1 - rr) / 2 := by
  unfold opaOf
  simp only
  rw [if_neg (not_lt.mpr h)]
  split_ifs
  · norm_num; ring
  · norm_num; ring

section
variable [FloorRing K]

theorem opaU16_ne_zero {s : Shape K} (h1 : s.hardness = 1 / 2) (h2 : s.softness = 1 / 2) {rr : K}
    (h : rr ≤ 3 / 4) : opaU16 s rr ≠ 0 := by
  unfold opaU16
  rw [h1, h2, opaOf_half rr (h.trans (by norm_num))]
  have : (1 : Int) ≤ ⌊(1 - rr) / 2 * 32768⌋ := by
    rw [Int.le_floor]
    push_cast
    linarith
  omega

theorem floor_bounds (v : K) : (⌊v⌋ : K) ≤ v ∧ v < ⌊v⌋ + 1 := ⟨Int.floor_le v, Int.lt_floor_add_one v⟩

theorem rrPlain_centre (x y radius : K) (rad1 : K) (h : 1 ≤ (shape x y radius rad1).radius) :
    rrPlain (shape x y radius rad1) ⌊x⌋ ⌊y⌋ ≤ 3 / 4 := by
  obtain ⟨hx0, hx1⟩ := floor_bounds x
  obtain ⟨hy0, hy1⟩ := floor_bounds y
  unfold rrPlain
  have e1 : (shape x y radius rad1).x = x := rfl
  have e2 : (shape x y radius rad1).y = y := rfl
  have e3 : (shape x y radius rad1).cs = 1 := rfl
  have e4 : (shape x y radius rad1).sn = 0 := rfl
  have e5 : (shape x y radius rad1).aspect = 1 := rfl
  simp only [e1, e2, e3, e4, e5]
  generalize (shape x y radius rad1).radius = R at h
  generalize ((⌊x⌋ : Int) : K) = fx at *
  generalize ((⌊y⌋ : Int) : K) = fy at *
  have hR : (1 : K) ≤ R * R := by nlinarith
  have hk : 1 / (R * R) ≤ 1 := by
    rw [div_le_one (by linarith)]; exact hR
  have hk0 : 0 ≤ 1 / (R * R) := by positivity
  have ha : (fx + 1 / 2 - x) * (fx + 1 / 2 - x) ≤ 1 / 4 := by nlinarith
  have hb : (fy + 1 / 2 - y) * (fy + 1 / 2 - y) ≤ 1 / 4 := by nlinarith
  have ha0 := mul_self_nonneg (fx + 1 / 2 - x)
  have hb0 := mul_self_nonneg (fy + 1 / 2 - y)
  have e : (((fy + 1 / 2 - y) * 1 - (fx + 1 / 2 - x) * 0) * 1 *
      (((fy + 1 / 2 - y) * 1 - (fx + 1 / 2 - x) * 0) * 1) +
      ((fy + 1 / 2 - y) * 0 + (fx + 1 / 2 - x) * 1) * ((fy + 1 / 2 - y) * 0 + (fx + 1 / 2 - x) * 1)) =
      (fx + 1 / 2 - x) * (fx + 1 / 2 - x) + (fy + 1 / 2 - y) * (fy + 1 / 2 - y) := by ring
  rw [e]
  generalize (fx + 1 / 2 - x) * (fx + 1 / 2 - x) = A at *
  generalize (fy + 1 / 2 - y) * (fy + 1 / 2 - y) = B at *
  generalize 1 / (R * R) = k at *
  nlinarith

/-- The nearest point of the pixel containing the centre. -/
theorem aaNearest_centre (x y radius rad1 : K) :
    let n := aaNearest (shape x y radius rad1) ⌊x⌋ ⌊y⌋
    n.2 = 0 ∧ -(1 / 2) ≤ n.1 ∧ n.1 ≤ 1 / 2 := by
  obtain ⟨hx0, hx1⟩ := floor_bounds x
  obtain ⟨hy0, hy1⟩ := floor_bounds y
  unfold aaNearest
  have e1 : (shape x y radius rad1).x = x := rfl
  have e2 : (shape x y radius rad1).y = y := rfl
  have e3 : (shape x y radius rad1).cs = 1 := rfl
  have e4 : (shape x y radius rad1).sn = 0 := rfl
  simp only [e1, e2, e3, e4, closestPoint]
  generalize ((⌊x⌋ : Int) : K) = fx at *
  generalize ((⌊y⌋ : Int) : K) = fy at *
  split_ifs
  · refine ⟨rfl, ?_, ?_⟩ <;> norm_num
  · have ey : (0 : K) * (((x - fx - 1 / 2) * 1 + (y - fy - 1 / 2) * 0) / (1 * 1 + 0 * 0)) = 0 := by ring
    have ex : (1 : K) * (((x - fx - 1 / 2) * 1 + (y - fy - 1 / 2) * 0) / (1 * 1 + 0 * 0)) = x - fx - 1 / 2 := by
      norm_num
    rw [ex, ey]
    unfold clampK
    refine ⟨?_, ?_, ?_⟩
    · split_ifs <;> linarith
    · split_ifs <;> linarith
    · split_ifs <;> linarith

theorem rrAntialiased_centre (x y radius : K) {rad1 : K} (h0 : 1 / 2 < rad1) (h1 : rad1 ≤ 3 / 5) :
    ∃ rr, rrAntialiased (shape x y radius rad1) ⌊x⌋ ⌊y⌋ = some rr ∧ rr ≤ 3 / 4 := by
  have hn := aaNearest_centre x y radius rad1
  simp only at hn
  have hR := shape_radius x y radius rad1
  unfold rrAntialiased aaFarthest
  simp only
  generalize rAAStart (shape x y radius rad1) = st
  generalize aaNearest (shape x y radius rad1) ⌊x⌋ ⌊y⌋ = n at *
  have e3 : (shape x y radius rad1).cs = 1 := rfl
  have e4 : (shape x y radius rad1).sn = 0 := rfl
  have e5 : (shape x y radius rad1).aspect = 1 := rfl
  have e6 : (shape x y radius rad1).rad1 = rad1 := rfl
  simp only [e3, e4, e5, e6]
  generalize (shape x y radius rad1).radius = R at *
  obtain ⟨n1, n2⟩ := n
  simp only at hn
  obtain ⟨rfl, ha, hb⟩ := hn
  have hRR : (1 : K) ≤ R * R := by nlinarith
  have hk : 1 / (R * R) ≤ 1 := by rw [div_le_one (by linarith)]; exact hRR
  have hk0 : 0 ≤ 1 / (R * R) := by positivity
  generalize 1 / (R * R) = k at *
  have hA0 := mul_self_nonneg n1
  have hA : n1 * n1 ≤ 1 / 4 := by nlinarith
  have hB0 : 0 < rad1 * rad1 := by nlinarith
  have hB : rad1 * rad1 ≤ 9 / 25 := by nlinarith
  have hnear : rSample n1 0 1 0 1 = n1 * n1 := by unfold rSample; ring
  have hfar : ∀ b : Prop, [Decidable b] → rSample
      (if b then (n1 - 0 * rad1, 0 + 1 * rad1) else (n1 + 0 * rad1, 0 - 1 * rad1)).1
      (if b then (n1 - 0 * rad1, 0 + 1 * rad1) else (n1 + 0 * rad1, 0 - 1 * rad1)).2 1 0 1 =
      n1 * n1 + rad1 * rad1 := by
    intro b _
    unfold rSample
    split_ifs <;> simp only <;> ring
  rw [hnear]
  simp only [hfar]
  generalize n1 * n1 = A at *
  generalize rad1 * rad1 = B at *
  have hAk : A * k ≤ 1 / 4 := by nlinarith
  have hAk0 : 0 ≤ A * k := mul_nonneg hA0 hk0
  have hBk : B * k ≤ 9 / 25 := by nlinarith
  have hBk0 : 0 ≤ B * k := mul_nonneg hB0.le hk0
  have hs : (A + B) * k = A * k + B * k := by ring
  rw [if_neg (by linarith)]
  split_ifs with g1 g2
  · exact ⟨_, rfl, by rw [hs]; linarith⟩
  · exfalso; rw [hs] at g2; linarith
  · refine ⟨_, rfl, ?_⟩
    rw [hs]
    have hd : (0 : K) < 1 + (A * k + B * k - A * k) := by linarith
    have : 1 / 4 ≤ (1 - A * k) / (1 + (A * k + B * k - A * k)) := by
      rw [le_div_iff₀ hd]; nlinarith
    linarith

/-- The pixel below the centre is always visible. -/
theorem centre_visible (x y radius : K) {rad1 : K} (h0 : 1 / 2 < rad1) (h1 : rad1 ≤ 3 / 5) :
    opacityAt (shape x y radius rad1) ⌊x⌋ ⌊y⌋ ≠ 0 := by
  unfold opacityAt rrAt
  by_cases h : (shape x y radius rad1).radius < 3
  · rw [if_pos h]
    obtain ⟨rr, e, hr⟩ := rrAntialiased_centre x y radius h0 h1
    rw [e]
    exact opaU16_ne_zero rfl rfl hr
  · rw [if_neg h]
    exact opaU16_ne_zero rfl rfl (rrPlain_centre x y radius rad1 (shape_radius x y radius rad1))

/-! ### The pixels of a tile -/

/-- The visible pixels of a tile, in canvas coordinates and in the order of the loop. -/
def vis (s : Shape K) (t : TileIndex) : List (Int × Int) :=
  (cRange (window (s.inTile t.x t.y)).y0 ((window (s.inTile t.x t.y)).y1 + 1)).flatMap fun y =>
    (cRange (window (s.inTile t.x t.y)).x0 ((window (s.inTile t.x t.y)).x1 + 1)).filterMap fun x =>
      if opacityAt s (64 * t.x + x) (64 * t.y + y) = 0 then none
      else some (64 * t.x + x, 64 * t.y + y)

theorem visible_eq_vis (s : Shape K) (t : TileIndex) :
    Spec.visible (opacityAt (s.inTile t.x t.y)) (window (s.inTile t.x t.y)).x0
      (window (s.inTile t.x t.y)).x1 (window (s.inTile t.x t.y)).y0 (window (s.inTile t.x t.y)).y1 =
    (vis s t).map fun P => (offset P.1 P.2, opacityAt s P.1 P.2) := by
  obtain ⟨w1, w2, w3, w4⟩ := window_bounds (s.inTile t.x t.y)
  unfold Spec.visible vis
  rw [List.map_flatMap]
  apply List.flatMap_congr
  intro y hy
  rw [List.map_filterMap]
  apply List.filterMap_congr
  intro x hx
  rw [mem_cRange] at hx hy
  rw [opacityAt_inTile]
  split_ifs
  · rfl
  · simp only [Option.map_some, Option.some.injEq, Prod.mk.injEq, and_true]
    unfold offset
    congr 1
    omega

theorem mem_vis {s : Shape K} (hv : s.Valid) (t : TileIndex) (P : Int × Int) :
    P ∈ vis s t ↔ tileOfPixel P.1 P.2 = t ∧ opacityAt s P.1 P.2 ≠ 0 := by
  have hvt := hv.inTile t.x t.y
  obtain ⟨w1, w2, w3, w4⟩ := window_bounds (s.inTile t.x t.y)
  unfold vis
  simp only [List.mem_flatMap, List.mem_filterMap, mem_cRange]
  constructor
  · rintro ⟨y, hy, x, hx, h⟩
    split_ifs at h with h0
    cases h
    refine ⟨?_, h0⟩
    unfold tileOfPixel
    obtain ⟨tx, ty⟩ := t
    simp only at *
    congr 1 <;> omega
  · rintro ⟨ht, h0⟩
    obtain ⟨X, Y⟩ := P
    subst ht
    simp only [tileOfPixel] at *
    have e : opacityAt (s.inTile (X / 64) (Y / 64)) (X % 64) (Y % 64) = opacityAt s X Y := by
      rw [opacityAt_inTile]; congr 1 <;> omega
    have h1 : opacityAt (s.inTile (X / 64) (Y / 64)) (X % 64) (Y % 64) ≠ 0 := by rw [e]; exact h0
    obtain ⟨g1, g2, g3, g4⟩ := opacityAt_support hvt h1
    refine ⟨Y % 64, ?_, X % 64, ?_, ?_⟩
    · unfold window; simp only [tileSize]; omega
    · unfold window; simp only [tileSize]; omega
    · have e1 : 64 * (X / 64) + X % 64 = X := by omega
      have e2 : 64 * (Y / 64) + Y % 64 = Y := by omega
      refine (if_neg ?_).trans ?_
      · show ¬ opacityAt s (64 * (X / 64) + X % 64) (64 * (Y / 64) + Y % 64) = 0
        rw [e1, e2]; exact h0
      · rw [e1, e2]

theorem vis_nodup (s : Shape K) (t : TileIndex) : (vis s t).Nodup := by
  obtain ⟨w1, w2, w3, w4⟩ := window_bounds (s.inTile t.x t.y)
  have h := (visible_good (opacityAt (s.inTile t.x t.y)) _ _ _ _ w1 w2 w3 w4).nodup
  rw [visible_eq_vis, List.map_map] at h
  exact List.Nodup.of_map _ h

theorem readAll_ok (t : Tile) (l : List (Nat × Nat)) (h : ∀ v ∈ l, v.1 + 3 < tileLen) :
    readAll t l = .ok (l.map fun v => (v.2, readPx t v.1)) := by
  induction l with
  | nil => rfl
  | cons v l ih =>
    obtain ⟨i, m⟩ := v
    have := h (i, m) (by simp)
    unfold readAll
    rw [if_neg (by simp only at this; omega), ih (fun v hv => h v (by simp [hv]))]
    rfl

theorem tilePixels_ok {s : Shape K} (hv : s.Valid) (t : TileIndex) (tile : Tile) :
    tilePixels s t tile =
      .ok ((vis s t).map fun P => (opacityAt s P.1 P.2, readPx tile (offset P.1 P.2))) := by
  obtain ⟨m, hm, hlen⟩ := render_length (hv.inTile t.x t.y)
  have h2 := visits_render (hv.inTile t.x t.y)
  rw [hm] at h2
  have h3 : visits m 0 = _ := h2
  unfold tilePixels
  rw [hm]
  simp only [bind, Except.bind]
  rw [if_neg (by omega), h3]
  simp only
  obtain ⟨w1, w2, w3, w4⟩ := window_bounds (s.inTile t.x t.y)
  have hg := (visible_good (opacityAt (s.inTile t.x t.y)) _ _ _ _ w1 w2 w3 w4).inside
  rw [readAll_ok tile _ (fun v hv => (hg v hv).2), visible_eq_vis, List.map_map]
  rfl

/-! ### The tiles of a sample -/

theorem mem_tilesFor (x y radius : K) (t : TileIndex) :
    t ∈ tilesFor x y radius ↔ (tileLo x radius ≤ t.x ∧ t.x ≤ tileHi x radius) ∧
      (tileLo y radius ≤ t.y ∧ t.y ≤ tileHi y radius) := by
  unfold tilesFor
  simp only [List.mem_flatMap, List.mem_map, mem_cRange]
  constructor
  · rintro ⟨ty, hty, tx, htx, rfl⟩
    simp only; omega
  · rintro ⟨h1, h2⟩
    exact ⟨t.y, by omega, t.x, by omega, rfl⟩

theorem tilesFor_nodup (x y radius : K) : (tilesFor x y radius).Nodup := by
  unfold tilesFor
  rw [List.nodup_flatMap]
  constructor
  · intro y _
    refine List.Nodup.map ?_ (cRange_nodup _ _)
    intro a b h
    simpa using h
  · refine List.Nodup.pairwise_of_forall_ne (cRange_nodup _ _) ?_
    intro a _ b _ hab
    simp only [Function.onFun, List.disjoint_left, List.mem_map]
    rintro _ ⟨_, _, rfl⟩ ⟨_, _, h⟩
    cases h
    exact hab rfl

theorem visible_tilesFor {s : Shape K} (hv : s.Valid) {X Y : Int} (h : opacityAt s X Y ≠ 0) :
    tileOfPixel X Y ∈ tilesFor s.x s.y s.radius := by
  obtain ⟨h1, h2, h3, h4⟩ := opacityAt_support hv h
  rw [mem_tilesFor]
  unfold tileOfPixel tileLo tileHi
  simp only
  omega

/-- All visible pixels, each once, in the order of the loops. -/
theorem allVis {s : Shape K} (hv : s.Valid) {ts : List TileIndex}
    (hp : ts.Perm (tilesFor s.x s.y s.radius)) :
    (ts.flatMap (vis s)).Nodup ∧ ∀ P, P ∈ ts.flatMap (vis s) ↔ opacityAt s P.1 P.2 ≠ 0 := by
  constructor
  · rw [List.nodup_flatMap]
    refine ⟨fun t _ => vis_nodup s t, ?_⟩
    refine List.Nodup.pairwise_of_forall_ne (hp.nodup_iff.mpr (tilesFor_nodup _ _ _)) ?_
    intro a _ b _ hab
    simp only [Function.onFun, List.disjoint_left]
    intro P ha hb
    rw [mem_vis hv] at ha hb
    exact hab (ha.1.symm.trans hb.1)
  · intro P
    simp only [List.mem_flatMap, mem_vis hv]
    constructor
    · rintro ⟨t, _, _, h⟩; exact h
    · intro h
      exact ⟨_, hp.symm.subset (visible_tilesFor hv h), rfl, h⟩

/-! ### Sums -/

/-- The pixel a tile of the canvas holds at a position (any value if the tile has a fault). -/
def px (c : Canvas) (P : Int × Int) : Px :=
  match pixel c P.1 P.2 with
  | .ok p => p
  | .error _ => ⟨0, 0, 0, 0⟩

/-- Sum over pixels. -/
def total (S : List (Int × Int)) (f : Int × Int → K) : K := (S.map f).sum

omit [LinearOrder K] [IsStrictOrderedRing K] [FloorRing K] in
theorem total_nil (f : Int × Int → K) : total [] f = 0 := rfl

omit [LinearOrder K] [IsStrictOrderedRing K] [FloorRing K] in
theorem total_cons (P : Int × Int) (S : List (Int × Int)) (f : Int × Int → K) :
    total (P :: S) f = f P + total S f := by simp [total]

omit [LinearOrder K] [IsStrictOrderedRing K] [FloorRing K] in
theorem total_append (S T : List (Int × Int)) (f : Int × Int → K) :
    total (S ++ T) f = total S f + total T f := by simp [total]

omit [LinearOrder K] [IsStrictOrderedRing K] [FloorRing K] in
theorem total_add (S : List (Int × Int)) (f g : Int × Int → K) :
    total S (fun P => f P + g P) = total S f + total S g := by
  induction S with
  | nil => simp [total]
  | cons P S ih => rw [total_cons, total_cons, total_cons, ih]; ring

omit [LinearOrder K] [IsStrictOrderedRing K] [FloorRing K] in
theorem total_mul (S : List (Int × Int)) (f : Int × Int → K) (a : K) :
    total S (fun P => a * f P) = a * total S f := by
  induction S with
  | nil => simp [total]
  | cons P S ih => rw [total_cons, total_cons, ih]; ring

omit [FloorRing K] in
theorem total_le (S : List (Int × Int)) (f g : Int × Int → K) (h : ∀ P ∈ S, f P ≤ g P) :
    total S f ≤ total S g := by
  induction S with
  | nil => simp [total]
  | cons P S ih =>
    rw [total_cons, total_cons]
    exact add_le_add (h P (by simp)) (ih fun P hP => h P (by simp [hP]))

omit [FloorRing K] in
theorem total_nonneg (S : List (Int × Int)) (f : Int × Int → K) (h : ∀ P ∈ S, 0 ≤ f P) :
    0 ≤ total S f := by
  induction S with
  | nil => simp [total]
  | cons P S ih =>
    rw [total_cons]
    exact add_nonneg (h P (by simp)) (ih fun P hP => h P (by simp [hP]))

omit [FloorRing K] in
theorem total_pos (S : List (Int × Int)) (f : Int × Int → K) (h : ∀ P ∈ S, 0 ≤ f P)
    {P : Int × Int} (hP : P ∈ S) (h0 : 0 < f P) : 0 < total S f := by
  induction S with
  | nil => simp at hP
  | cons Q S ih =>
    rw [total_cons]
    rcases List.mem_cons.mp hP with rfl | hP
    · exact add_pos_of_pos_of_nonneg h0 (total_nonneg S f fun P hP => h P (by simp [hP]))
    · exact add_pos_of_nonneg_of_pos (h Q (by simp)) (ih (fun P hP => h P (by simp [hP])) hP)

omit [LinearOrder K] [IsStrictOrderedRing K] [FloorRing K] in
theorem total_congr (S : List (Int × Int)) (f g : Int × Int → K) (h : ∀ P ∈ S, f P = g P) :
    total S f = total S g := by
  unfold total
  rw [List.map_congr_left h]

/-! ### The choice of pixels -/

/-- The sampled pixels (brushmodes.c 587 and 614). -/
def chosen {α : Type} (n : Nat) (coin : Nat → Bool) : Nat → Nat → List α → List α
  | _, _, [] => []
  | j, k, v :: l =>
    if k = 0 ∨ coin j = true then v :: chosen n coin (j + 1) ((k + 1) % n) l
    else chosen n coin (j + 1) ((k + 1) % n) l

theorem chosen_sublist {α : Type} (n : Nat) (coin : Nat → Bool) (l : List α) :
    ∀ j k, (chosen n coin j k l).Sublist l := by
  induction l with
  | nil => intro j k; exact List.Sublist.refl _
  | cons v l ih =>
    intro j k
    unfold chosen
    split_ifs
    · exact (ih _ _).cons_cons v
    · exact (ih _ _).cons v

theorem chosen_one {α : Type} (coin : Nat → Bool) (l : List α) : ∀ j, chosen 1 coin j 0 l = l := by
  induction l with
  | nil => intro j; rfl
  | cons v l ih =>
    intro j
    unfold chosen
    rw [if_pos (Or.inl rfl)]
    show v :: chosen 1 coin (j + 1) 0 l = v :: l
    rw [ih]

theorem chosen_ne_nil {α : Type} (n : Nat) (coin : Nat → Bool) {l : List α} (h : l ≠ []) (j : Nat) :
    chosen n coin j 0 l ≠ [] := by
  cases l with
  | nil => exact absurd rfl h
  | cons v l => unfold chosen; rw [if_pos (Or.inl rfl)]; simp

omit [IsStrictOrderedRing K] [FloorRing K] in
theorem sampleLoop_ok {α : Type} (pow : K → K → K) (paint : K) {n : Nat} (hn : n ≠ 0) (coin : Nat → Bool)
    (g : α → Nat × Px) (l : List α) : ∀ j k st, sampleLoop pow paint n coin j k (l.map g) st =
      .ok ((chosen n coin j k l).foldl (fun st P => sampleOne pow paint st (g P)) st) := by
  induction l with
  | nil => intro j k st; rfl
  | cons v l ih =>
    intro j k st
    rw [List.map_cons]
    unfold sampleLoop chosen
    rw [if_neg hn, ih]
    split_ifs <;> rfl

omit [IsStrictOrderedRing K] [FloorRing K] in
/-- With interval 0 the loop divides by zero at the first pixel. -/
theorem sampleLoop_zero (pow : K → K → K) (paint : K) (coin : Nat → Bool) {l : List (Nat × Px)} (h : l ≠ [])
    (j k : Nat) (st : LoopSt K) : sampleLoop pow paint 0 coin j k l st = .error .divByZero := by
  cases l with
  | nil => exact absurd rfl h
  | cons v l => unfold sampleLoop; rw [if_pos rfl]

/-! ### What the loop computes -/

/-- Contribution of a pixel to `sum_a`. -/
def wa (s : Shape K) (c : Canvas) (P : Int × Int) : K :=
  (opacityAt s P.1 P.2 : K) * ((px c P).a : K)

theorem fold_alpha (pow : K → K → K) (paint : K) (s : Shape K) (c : Canvas) (S : List (Int × Int)) (st : LoopSt K) :
    (S.foldl (fun st P => sampleOne pow paint st (opacityAt s P.1 P.2, px c P)) st).w =
      st.w + total S (fun P => (opacityAt s P.1 P.2 : K)) / 32768 ∧
    (S.foldl (fun st P => sampleOne pow paint st (opacityAt s P.1 P.2, px c P)) st).a =
      st.a + total S (wa s c) / 1073741824 := by
  induction S generalizing st with
  | nil => simp [total]
  | cons P S ih =>
    rw [List.foldl_cons, (ih _).1, (ih _).2, total_cons, total_cons]
    constructor
    · simp only [sampleOne]; ring
    · simp only [sampleOne, wa]; ring

/-- The weighted sum of one channel kept by the running average. -/
theorem sampleOne_avg (pow : K → K → K) {paint : K} (hp : paint < 1) (st : LoopSt K) (m : Nat) (p : Px)
    (hv : p.Valid) (ha : 0 ≤ st.a) :
    let st' := sampleOne pow paint st (m, p)
    st'.avg.r * st'.a = st.avg.r * st.a + (m : K) * (p.r : K) / 1073741824 ∧
    st'.avg.g * st'.a = st.avg.g * st.a + (m : K) * (p.g : K) / 1073741824 ∧
    st'.avg.b * st'.a = st.avg.b * st.a + (m : K) * (p.b : K) / 1073741824 ∧ 0 ≤ st'.a := by
  obtain ⟨h1, h2, h3, h4⟩ := hv
  simp only [sampleOne]
  have hm : (0 : K) ≤ m := Nat.cast_nonneg m
  have hpa : (0 : K) ≤ p.a := Nat.cast_nonneg _
  have hA : 0 ≤ (m : K) * (p.a : K) / 1073741824 := by positivity
  by_cases h0 : 0 < p.a
  · rw [if_pos ⟨hp, h0⟩]
    have hpa' : (0 : K) < p.a := by exact_mod_cast h0
    have hpn := hpa'.ne'
    by_cases hs : 0 < (m : K) * (p.a : K) / 1073741824 + st.a
    · simp only [if_pos hs]
      have hn := hs.ne'
      have hA1 : (m : K) * (p.a : K) / 1073741824 / (p.a : K) = (m : K) / 1073741824 := by
        field_simp
      refine ⟨?_, ?_, ?_, by linarith⟩
      all_goals
        generalize hA2 : (m : K) * (p.a : K) / 1073741824 = A at *
        have hAm : A = (m : K) / 1073741824 * p.a := by rw [← hA2]; ring
      · have : (p.r : K) * (A / (A + st.a)) / p.a * (st.a + A) = (p.r : K) * (m / 1073741824) := by
          rw [← hA1]; field_simp; ring
        have h2 : st.avg.r * (1 - A / (A + st.a)) * (st.a + A) = st.avg.r * st.a := by
          field_simp; ring
        linear_combination this + h2
      · have : (p.g : K) * (A / (A + st.a)) / p.a * (st.a + A) = (p.g : K) * (m / 1073741824) := by
          rw [← hA1]; field_simp; ring
        have h2 : st.avg.g * (1 - A / (A + st.a)) * (st.a + A) = st.avg.g * st.a := by
          field_simp; ring
        linear_combination this + h2
      · have : (p.b : K) * (A / (A + st.a)) / p.a * (st.a + A) = (p.b : K) * (m / 1073741824) := by
          rw [← hA1]; field_simp; ring
        have h2 : st.avg.b * (1 - A / (A + st.a)) * (st.a + A) = st.avg.b * st.a := by
          field_simp; ring
        linear_combination this + h2
    · have hst : st.a = 0 := by linarith
      have hA0 : (m : K) * (p.a : K) / 1073741824 = 0 := by linarith
      have hm0 : (m : K) = 0 := by
        have : (m : K) * (p.a : K) = 0 := by
          rw [div_eq_zero_iff] at hA0
          rcases hA0 with h | h
          · exact h
          · norm_num at h
        rcases mul_eq_zero.mp this with h | h
        · exact h
        · exact absurd h hpn
      rw [hst, hm0]
      refine ⟨?_, ?_, ?_, ?_⟩ <;> simp
  · rw [if_neg (fun h => h0 h.2)]
    have e0 : p.a = 0 := by omega
    have er : p.r = 0 := by omega
    have eg : p.g = 0 := by omega
    have eb : p.b = 0 := by omega
    simp only [e0, er, eg, eb, Nat.cast_zero, mul_zero, zero_div, add_zero, true_and]
    exact ha

theorem fold_avg (pow : K → K → K) {paint : K} (hp : paint < 1) (s : Shape K) (c : Canvas)
    (S : List (Int × Int)) (hv : ∀ P ∈ S, (px c P).Valid) (st : LoopSt K) (ha : 0 ≤ st.a) :
    let st' := S.foldl (fun st P => sampleOne pow paint st (opacityAt s P.1 P.2, px c P)) st
    st'.avg.r * st'.a = st.avg.r * st.a +
      total S (fun P => (opacityAt s P.1 P.2 : K) * ((px c P).r : K)) / 1073741824 ∧
    st'.avg.g * st'.a = st.avg.g * st.a +
      total S (fun P => (opacityAt s P.1 P.2 : K) * ((px c P).g : K)) / 1073741824 ∧
    st'.avg.b * st'.a = st.avg.b * st.a +
      total S (fun P => (opacityAt s P.1 P.2 : K) * ((px c P).b : K)) / 1073741824 ∧ 0 ≤ st'.a := by
  induction S generalizing st with
  | nil => simp [total, ha]
  | cons P S ih =>
    obtain ⟨g1, g2, g3, g4⟩ := sampleOne_avg pow hp st (opacityAt s P.1 P.2) (px c P) (hv P (by simp)) ha
    obtain ⟨k1, k2, k3, k4⟩ := ih (fun P hP => hv P (by simp [hP])) _ g4
    simp only [List.foldl_cons, total_cons]
    refine ⟨?_, ?_, ?_, k4⟩
    · rw [k1, g1]; ring
    · rw [k2, g2]; ring
    · rw [k3, g3]; ring

/-! ### All tiles -/

/-- Every tile of a list holds pixels. -/
def Present (c : Canvas) (ts : List TileIndex) : Prop := ∀ t ∈ ts, ∃ tile, c t = .ok tile

theorem px_eq {s : Shape K} (hv : s.Valid) {c : Canvas} {t : TileIndex} {tile : Tile} (h : c t = .ok tile)
    {P : Int × Int} (hP : P ∈ vis s t) : readPx tile (offset P.1 P.2) = px c P := by
  have ht := ((mem_vis hv t P).mp hP).1
  unfold px pixel
  rw [ht, h]
  rfl

theorem accumulateAll_sampled {s : Shape K} (hv : s.Valid) (pow : K → K → K) {paint : K} (hp : 0 ≤ paint)
    {n : Nat} (hn : n ≠ 0) (coin : TileIndex → Nat → Bool) (c : Canvas) (ts : List TileIndex)
    (hc : Present c ts) (acc : Acc K) :
    ∃ S acc', accumulateAll pow s paint n coin (ts.zip (ts.map c)) acc = .ok acc' ∧
      S.Sublist (ts.flatMap (vis s)) ∧ (n = 1 → S = ts.flatMap (vis s)) ∧
      (ts.flatMap (vis s) ≠ [] → S ≠ []) ∧
      acc'.w = acc.w + total S (fun P => (opacityAt s P.1 P.2 : K)) / 32768 ∧
      acc'.a = acc.a + total S (wa s c) / 1073741824 ∧
      (paint = 0 → 0 ≤ acc.a → (∀ P ∈ ts.flatMap (vis s), (px c P).Valid) →
        acc'.r * acc'.a = acc.r * acc.a +
          total S (fun P => (opacityAt s P.1 P.2 : K) * ((px c P).r : K)) / 1073741824 ∧
        acc'.g * acc'.a = acc.g * acc.a +
          total S (fun P => (opacityAt s P.1 P.2 : K) * ((px c P).g : K)) / 1073741824 ∧
        acc'.b * acc'.a = acc.b * acc.a +
          total S (fun P => (opacityAt s P.1 P.2 : K) * ((px c P).b : K)) / 1073741824) := by
  induction ts generalizing acc with
  | nil =>
    refine ⟨[], acc, rfl, List.Sublist.refl _, fun _ => rfl, fun h => h, ?_, ?_, ?_⟩
    · simp [total]
    · simp [total]
    · intro _ _ _; simp [total]
  | cons t ts ih =>
    obtain ⟨tile, ht⟩ := hc t (by simp)
    have hpx : tilePixels s t tile = .ok ((vis s t).map fun P => (opacityAt s P.1 P.2, px c P)) := by
      rw [tilePixels_ok hv]
      congr 1
      apply List.map_congr_left
      intro P hP
      rw [px_eq hv ht hP]
    set g : Int × Int → Nat × Px := fun P => (opacityAt s P.1 P.2, px c P) with hg
    set S0 := chosen n (coin t) 0 0 (vis s t) with hS0
    obtain ⟨st', hst⟩ : ∃ st' : LoopSt K, st' = S0.foldl (fun st P => sampleOne pow paint st (g P))
        { w := acc.w, a := acc.a, avg := ⟨acc.r, acc.g, acc.b⟩
          spec := if 0 < paint then rgbToSpectral ⟨acc.r, acc.g, acc.b⟩ else List.replicate 10 0 } := ⟨_, rfl⟩
    set acc1 : Acc K :=
      { w := st'.w, a := st'.a
        r := (spectralToRgb st'.spec).r * paint + (1 - paint) * st'.avg.r
        g := (spectralToRgb st'.spec).g * paint + (1 - paint) * st'.avg.g
        b := (spectralToRgb st'.spec).b * paint + (1 - paint) * st'.avg.b } with hacc1
    have h1 : accumulateTile pow paint n (coin t) ((vis s t).map g) acc = .ok acc1 := by
      unfold accumulateTile
      rw [if_neg (not_lt.mpr hp)]
      dsimp only
      rw [sampleLoop_ok pow paint hn, ← hst]
      rfl
    obtain ⟨S, acc', h2, hsub, hall, hne, hw, ha, havg⟩ := ih (fun u hu => hc u (by simp [hu])) acc1
    obtain ⟨fw, fa⟩ := fold_alpha pow paint s c S0
      { w := acc.w, a := acc.a, avg := ⟨acc.r, acc.g, acc.b⟩
        spec := if 0 < paint then rgbToSpectral ⟨acc.r, acc.g, acc.b⟩ else List.replicate 10 0 }
    rw [← hst] at fw fa
    refine ⟨S0 ++ S, acc', ?_, ?_, ?_, ?_, ?_, ?_, ?_⟩
    · rw [List.map_cons, List.zip_cons_cons]
      unfold accumulateAll
      simp only [ht, bind, Except.bind, hpx, h1]
      exact h2
    · rw [List.flatMap_cons]
      exact (chosen_sublist n (coin t) (vis s t) 0 0).append hsub
    · intro h
      rw [List.flatMap_cons, hall h, hS0, h, chosen_one]
    · intro h
      rw [List.flatMap_cons] at h
      by_cases hvn : vis s t = []
      · rw [hvn, List.nil_append] at h
        simp [hne h]
      · have := chosen_ne_nil n (coin t) hvn 0
        simp [hS0, this]
    · rw [hw, total_append]
      show st'.w + _ = _
      rw [fw]; ring
    · rw [ha, total_append]
      show st'.a + _ = _
      rw [fa]; ring
    · intro h0 hacc hval
      have hval0 : ∀ P ∈ S0, (px c P).Valid := by
        intro P hP
        apply hval
        rw [List.flatMap_cons]
        exact List.mem_append_left _ ((chosen_sublist n (coin t) (vis s t) 0 0).subset hP)
      obtain ⟨k1, k2, k3, k4⟩ := fold_avg pow (show paint < 1 by rw [h0]; exact one_pos) s c S0 hval0
        { w := acc.w, a := acc.a, avg := ⟨acc.r, acc.g, acc.b⟩
          spec := if 0 < paint then rgbToSpectral ⟨acc.r, acc.g, acc.b⟩ else List.replicate 10 0 } hacc
      rw [← hst] at k1 k2 k3 k4
      obtain ⟨m1, m2, m3⟩ := havg h0 k4 (fun P hP => hval P (by
        rw [List.flatMap_cons]; exact List.mem_append_right _ hP))
      have e1 : acc1.r = st'.avg.r := by rw [hacc1, h0]; simp
      have e2 : acc1.g = st'.avg.g := by rw [hacc1, h0]; simp
      have e3 : acc1.b = st'.avg.b := by rw [hacc1, h0]; simp
      have e4 : acc1.a = st'.a := rfl
      refine ⟨?_, ?_, ?_⟩
      · rw [m1, total_append, e1, e4, k1]; ring
      · rw [m2, total_append, e2, e4, k2]; ring
      · rw [m3, total_append, e3, e4, k3]; ring

/-! ### Legacy sums -/

/-- The sums without wrap-around. -/
def plainSums (l : List (Nat × Px)) : Nat × Nat × Nat × Nat × Nat :=
  ((l.map fun v => v.1).sum, (l.map fun v => v.1 * v.2.r / 32768).sum, (l.map fun v => v.1 * v.2.g / 32768).sum,
    (l.map fun v => v.1 * v.2.b / 32768).sum, (l.map fun v => v.1 * v.2.a / 32768).sum)

theorem sum_le_mul {α : Type} (l : List α) (f : α → Nat) (b : Nat) (h : ∀ v ∈ l, f v ≤ b) :
    (l.map f).sum ≤ l.length * b := by
  induction l with
  | nil => simp
  | cons v l ih =>
    have := ih fun v hv => h v (by simp [hv])
    have := h v (by simp)
    simp only [List.map_cons, List.sum_cons, List.length_cons, Nat.add_mul, Nat.one_mul]
    omega

/-- The 32 bit sums over one tile do not wrap around. -/
theorem legacySums_eq (l : List (Nat × Px)) (hlen : l.length ≤ 4096)
    (h : ∀ v ∈ l, v.1 ≤ 32768 ∧ v.2.r ≤ 65535 ∧ v.2.g ≤ 65535 ∧ v.2.b ≤ 65535 ∧ v.2.a ≤ 65535) :
    legacySums l = plainSums l := by
  have hmul : ∀ m v : Nat, m ≤ 32768 → v ≤ 65535 → m * v ≤ 2147450880 ∧ m * v / 32768 ≤ 65535 := by
    intro m v hm hv
    have : m * v ≤ 32768 * 65535 := Nat.mul_le_mul hm hv
    omega
  have key : ∀ (l : List (Nat × Px)) (n : Nat) (s : Nat × Nat × Nat × Nat × Nat),
      n + l.length ≤ 4096 →
      (∀ v ∈ l, v.1 ≤ 32768 ∧ v.2.r ≤ 65535 ∧ v.2.g ≤ 65535 ∧ v.2.b ≤ 65535 ∧ v.2.a ≤ 65535) →
      s.1 ≤ n * 65535 → s.2.1 ≤ n * 65535 → s.2.2.1 ≤ n * 65535 → s.2.2.2.1 ≤ n * 65535 →
      s.2.2.2.2 ≤ n * 65535 →
      l.foldl (fun s v =>
        (u32 (s.1 + v.1), u32 (s.2.1 + u32 (v.1 * v.2.r) / 32768), u32 (s.2.2.1 + u32 (v.1 * v.2.g) / 32768),
          u32 (s.2.2.2.1 + u32 (v.1 * v.2.b) / 32768), u32 (s.2.2.2.2 + u32 (v.1 * v.2.a) / 32768))) s =
      (s.1 + (plainSums l).1, s.2.1 + (plainSums l).2.1, s.2.2.1 + (plainSums l).2.2.1,
        s.2.2.2.1 + (plainSums l).2.2.2.1, s.2.2.2.2 + (plainSums l).2.2.2.2) := by
    intro l
    induction l with
    | nil => intro n s _ _ _ _ _ _ _; simp [plainSums]
    | cons v l ih =>
      intro n s hn hl h1 h2 h3 h4 h5
      obtain ⟨b1, b2, b3, b4, b5⟩ := hl v (by simp)
      simp only [List.length_cons] at hn
      obtain ⟨r1, r2⟩ := hmul v.1 v.2.r b1 b2
      obtain ⟨g1, g2⟩ := hmul v.1 v.2.g b1 b3
      obtain ⟨c1, c2⟩ := hmul v.1 v.2.b b1 b4
      obtain ⟨a1, a2⟩ := hmul v.1 v.2.a b1 b5
      have hu : ∀ x y : Nat, x ≤ 2147450880 → y ≤ n * 65535 → u32 (y + u32 x / 32768) = y + x / 32768 := by
        intro x y hx hy
        unfold u32
        omega
      rw [List.foldl_cons, hu _ _ r1 h2, hu _ _ g1 h3, hu _ _ c1 h4, hu _ _ a1 h5,
        show u32 (s.1 + v.1) = s.1 + v.1 by unfold u32; omega]
      rw [ih (n + 1) _ (by omega) (fun v hv => hl v (by simp [hv]))]
      · simp only [plainSums, List.map_cons, List.sum_cons, Prod.mk.injEq]
        refine ⟨by omega, by omega, by omega, by omega, by omega⟩
      all_goals simp only; omega
  have := key l 0 (0, 0, 0, 0, 0) (by omega) h (by simp) (by simp) (by simp) (by simp) (by simp)
  unfold legacySums
  rw [this]
  simp

theorem vis_length {s : Shape K} (hv : s.Valid) (t : TileIndex) : (vis s t).length ≤ 4096 := by
  have hsub : (vis s t) ⊆ (List.range 4096).map fun i : Nat => (64 * t.x + (i % 64 : Nat), 64 * t.y + (i / 64 : Nat)) := by
    rintro ⟨X, Y⟩ hP
    have := ((mem_vis hv t _).mp hP).1
    have hx : X / 64 = t.x := by rw [← this]; rfl
    have hy : Y / 64 = t.y := by rw [← this]; rfl
    rw [List.mem_map]
    refine ⟨(X % 64 + 64 * (Y % 64)).toNat, ?_, ?_⟩
    · rw [List.mem_range]; omega
    · rw [Prod.mk.injEq]
      constructor
      · omega
      · omega
  have := (List.subperm_of_subset (vis_nodup s t) hsub).length_le
  simpa using this

omit [LinearOrder K] [IsStrictOrderedRing K] [FloorRing K] in
theorem cast_sum (S : List (Int × Int)) (f : Int × Int → Nat) :
    (((S.map f).sum : Nat) : K) = total S (fun P => (f P : K)) := by
  unfold total
  induction S with
  | nil => simp
  | cons P S ih => simp [ih]

/-- Every channel is a 16 bit number. -/
def Px.Word (p : Px) : Prop := p.r ≤ 65535 ∧ p.g ≤ 65535 ∧ p.b ≤ 65535 ∧ p.a ≤ 65535

theorem accumulateAll_legacy {s : Shape K} (hv : s.Valid) (pow : K → K → K) {paint : K} (hp : paint < 0)
    (n : Nat) (coin : TileIndex → Nat → Bool) (c : Canvas) (ts : List TileIndex)
    (hc : Present c ts) (hw : ∀ P ∈ ts.flatMap (vis s), Px.Word (px c P)) (acc : Acc K) :
    accumulateAll pow s paint n coin (ts.zip (ts.map c)) acc = .ok
      { w := acc.w + total (ts.flatMap (vis s)) (fun P => (opacityAt s P.1 P.2 : K))
        r := acc.r + total (ts.flatMap (vis s)) (fun P => ((opacityAt s P.1 P.2 * (px c P).r / 32768 : Nat) : K))
        g := acc.g + total (ts.flatMap (vis s)) (fun P => ((opacityAt s P.1 P.2 * (px c P).g / 32768 : Nat) : K))
        b := acc.b + total (ts.flatMap (vis s)) (fun P => ((opacityAt s P.1 P.2 * (px c P).b / 32768 : Nat) : K))
        a := acc.a + total (ts.flatMap (vis s)) (fun P => ((opacityAt s P.1 P.2 * (px c P).a / 32768 : Nat) : K)) } := by
  induction ts generalizing acc with
  | nil => simp [accumulateAll, total]
  | cons t ts ih =>
    obtain ⟨tile, ht⟩ := hc t (by simp)
    have hpx : tilePixels s t tile = .ok ((vis s t).map fun P => (opacityAt s P.1 P.2, px c P)) := by
      rw [tilePixels_ok hv]
      congr 1
      apply List.map_congr_left
      intro P hP
      rw [px_eq hv ht hP]
    have hs := legacySums_eq ((vis s t).map fun P => (opacityAt s P.1 P.2, px c P))
      (by rw [List.length_map]; exact vis_length hv t) (by
        intro v hvm
        obtain ⟨P, hP, rfl⟩ := List.mem_map.mp hvm
        have := hw P (by rw [List.flatMap_cons]; exact List.mem_append_left _ hP)
        exact ⟨opacityAt_le hv _ _, this⟩)
    rw [List.map_cons, List.zip_cons_cons]
    unfold accumulateAll
    simp only [ht, bind, Except.bind, hpx]
    unfold accumulateTile
    simp only [if_pos hp]
    rw [ih (fun u hu => hc u (by simp [hu])) (fun P hP => hw P (by
      rw [List.flatMap_cons]; exact List.mem_append_right _ hP))]
    unfold legacyTile
    simp only [hs, plainSums, List.map_map, Function.comp_def, List.flatMap_cons, total_append, cast_sum, add_assoc]

theorem interval_pos {radius : K} (h : 0 ≤ radius) (h7 : radius * 7 < 65536) :
    ∃ n, interval radius = .ok n ∧ n ≠ 0 ∧ (radius ≤ 2 → n = 1) := by
  unfold interval
  by_cases h2 : radius ≤ 2
  · rw [if_pos h2]; exact ⟨1, rfl, one_ne_zero, fun _ => rfl⟩
  · rw [if_neg h2]
    have h3 : 14 < radius * 7 := by linarith [not_le.mp h2]
    have f1 : (14 : Int) ≤ ⌊radius * 7⌋ := by rw [Int.le_floor]; push_cast; exact h3.le
    have f2 : ⌊radius * 7⌋ < 65536 := by rw [Int.floor_lt]; push_cast; exact h7
    have e : toInt (radius * 7) = .ok ⌊radius * 7⌋ := by
      unfold toInt
      simp only [if_pos (show (0 : K) ≤ radius * 7 by linarith)]
      rw [if_pos]
      unfold intMin intMax
      constructor <;> omega
    refine ⟨(⌊radius * 7⌋ % 65536).toNat, by rw [e]; rfl, by omega, fun h => absurd h h2⟩

theorem convertible_of {x y radius : K} (h0 : 0 ≤ radius) (hr : radius ≤ 68719476736)
    (hx : |x| ≤ 68719476736 - 2) (hy : |y| ≤ 68719476736 - 2) : convertible x y radius = true := by
  have lo : ∀ v : K, |v| ≤ 68719476736 - 2 → intMin ≤ tileLo v radius ∧ tileLo v radius ≤ intMax := by
    intro v hv
    obtain ⟨h1, h2⟩ := abs_le.mp hv
    have f1 : (-137438953472 : Int) ≤ ⌊v - (radius + 1)⌋ := by rw [Int.le_floor]; push_cast; linarith
    have f2 : ⌊v - (radius + 1)⌋ < 137438953472 := by rw [Int.floor_lt]; push_cast; linarith
    unfold tileLo intMin intMax
    omega
  have hi : ∀ v : K, |v| ≤ 68719476736 - 2 → intMin ≤ tileHi v radius ∧ tileHi v radius ≤ intMax := by
    intro v hv
    obtain ⟨h1, h2⟩ := abs_le.mp hv
    have f1 : (-137438953472 : Int) ≤ ⌊v + (radius + 1)⌋ := by rw [Int.le_floor]; push_cast; linarith
    have f2 : ⌊v + (radius + 1)⌋ < 137438953472 := by rw [Int.floor_lt]; push_cast; linarith
    unfold tileHi intMin intMax
    omega
  unfold convertible
  simp only [Bool.and_eq_true, decide_eq_true_eq]
  exact ⟨⟨⟨lo x hx, hi x hx⟩, lo y hy⟩, hi y hy⟩

end
end Verif.Sample
