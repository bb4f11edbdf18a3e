import Verif.Model.Mask
import Verif.Spec.Mask
import Verif.Lemmas.TileMap

namespace Verif.Mask

theorem cRange_nil {lo hi : Int} (h : hi ≤ lo) : cRange lo hi = [] := by
  unfold cRange
  rw [Int.toNat_eq_zero.mpr (by omega)]; rfl

theorem cRange_cons {lo hi : Int} (h : lo < hi) : cRange lo hi = lo :: cRange (lo + 1) hi := by
  unfold cRange
  obtain ⟨n, hn⟩ : ∃ n : Nat, (hi - lo).toNat = n + 1 := ⟨(hi - lo).toNat - 1, by omega⟩
  have h2 : (hi - (lo + 1)).toNat = n := by omega
  rw [hn, h2, List.range_succ_eq_map]
  simp only [List.map_cons, List.map_map, List.cons.injEq]
  refine ⟨by simp, ?_⟩
  apply List.map_congr_left
  intro k _
  simp only [Function.comp]
  push_cast
  ring

/-- The state of the encoder at pixel number `P`, when the pixels visited so far are `L`. -/
structure Inv (e : Enc) (L : List (Nat × Nat)) (P : Int) : Prop where
  skip : 0 ≤ e.skip
  vis : ∃ p : Nat, (p : Int) + 4 * e.skip = 4 * P ∧
    ∀ tail, visits (e.out ++ tail) 0 = (L ++ ·) <$> visits tail p

theorem visits_pos {m : Nat} (h : m ≠ 0) (rest : List Nat) (pos : Nat) :
    visits (m :: rest) pos = ((pos, m) :: ·) <$> visits rest (pos + 4) := by
  obtain ⟨k, rfl⟩ : ∃ k, m = k + 1 := ⟨m - 1, by omega⟩
  rw [visits]
  cases visits rest (pos + 4) <;> rfl

theorem visits_skip {n : Nat} (h : n ≠ 0) (rest : List Nat) (pos : Nat) :
    visits (0 :: n :: rest) pos = visits rest (pos + n) := by
  obtain ⟨k, rfl⟩ : ∃ k, n = k + 1 := ⟨n - 1, by omega⟩
  rw [visits]

theorem map_map_except {α β γ : Type} (f : β → γ) (g : α → β) (x : Except Fault α) :
    f <$> g <$> x = (f ∘ g) <$> x := by cases x <;> rfl

theorem encPixel_inv {e : Enc} {L P} (h : Inv e L P) (hP : P < 4096) (opa : Nat) :
    Inv (encPixel e opa) (if opa = 0 then L else L ++ [((4 * P).toNat, opa)]) (P + 1) := by
  obtain ⟨hs, p, hp, hv⟩ := h
  unfold encPixel
  by_cases ho : opa = 0
  · simp only [ho, if_true]
    exact ⟨by simp only; omega, p, by simp only; omega, hv⟩
  · simp only [ho, if_false]
    by_cases hk : e.skip = 0
    · simp only [hk, ne_eq, not_true, if_false]
      refine ⟨by simp only; omega, p + 4, by simp only; push_cast; omega, fun tail => ?_⟩
      simp only [List.append_assoc, List.singleton_append]
      have : (4 * P).toNat = p := by omega
      rw [hv, visits_pos ho, map_map_except, this]
      congr 1
    · simp only [hk, ne_eq, not_false_eq_true, if_true]
      refine ⟨le_refl _, (4 * P).toNat + 4, by simp only; push_cast; omega, fun tail => ?_⟩
      simp only [List.append_assoc, List.cons_append, List.nil_append]
      have hm : e.skip * 4 % 65536 = e.skip * 4 := Int.emod_eq_of_lt (by omega) (by omega)
      have : p + (e.skip * 4).toNat = (4 * P).toNat := by omega
      rw [hv, hm, visits_skip (by omega), visits_pos ho, map_map_except, this]
      congr 1

/-- Visible pixels of a part of a row. -/
def rowVisible (opa : Int → Int → Nat) (y : Int) (xs : List Int) : List (Nat × Nat) :=
  xs.filterMap fun x => if opa x y = 0 then none else some ((4 * (64 * y + x)).toNat, opa x y)

theorem encCols_inv (opa : Int → Int → Nat) {y : Int} (hy1 : y ≤ 63) (hi : Int) (hhi : hi ≤ 64) :
    ∀ (n : Nat) (lo : Int) (e : Enc) (L : List (Nat × Nat)), (hi - lo).toNat = n →
      Inv e L (64 * y + lo) →
      Inv ((cRange lo hi).foldl (fun e xp => encPixel e (opa xp y)) e)
        (L ++ rowVisible opa y (cRange lo hi)) (64 * y + max hi lo) := by
  intro n
  induction n with
  | zero =>
    intro lo e L hn h
    rw [cRange_nil (by omega)]
    simpa [rowVisible, max_eq_right (show hi ≤ lo by omega)] using h
  | succ n ih =>
    intro lo e L hn h
    rw [cRange_cons (by omega)]
    have h1 := encPixel_inv h (by omega) (opa lo y)
    have h2 := ih (lo + 1) _ _ (by omega) (by simpa only [add_assoc] using h1)
    rw [List.foldl_cons]
    rw [max_eq_left (by omega)] at h2 ⊢
    convert h2 using 1
    by_cases ho : opa lo y = 0 <;> simp [rowVisible, ho]

theorem encRow_inv (opa : Int → Int → Nat) (w : Window) (hx0 : 0 ≤ w.x0) (hx1 : w.x1 ≤ 63)
    {y : Int} (hy1 : y ≤ 63) {e : Enc} {L} (h : Inv e L (64 * y)) :
    Inv (encRow opa w e y) (L ++ rowVisible opa y (cRange w.x0 (w.x1 + 1))) (64 * (y + 1)) := by
  have h0 : Inv { e with skip := e.skip + w.x0 } L (64 * y + w.x0) := by
    obtain ⟨hs, p, hp, hv⟩ := h
    exact ⟨by simp only; omega, p, by simp only; omega, hv⟩
  by_cases hw : w.x0 ≤ w.x1 + 1
  · obtain ⟨hs, p, hp, hv⟩ := encCols_inv opa hy1 (w.x1 + 1) (by omega) _ w.x0 _ _ rfl h0
    unfold encRow
    simp only [tileSize]
    rw [max_eq_left hw] at hp ⊢
    refine ⟨by simp only; omega, p, by simp only; omega, ?_⟩
    simpa only using hv
  · obtain ⟨hs, p, hp, hv⟩ := h
    unfold encRow
    rw [cRange_nil (by omega), max_eq_right (by omega)]
    simp only [List.foldl_nil, tileSize, rowVisible, List.filterMap_nil, List.append_nil]
    exact ⟨by simp only; omega, p, by simp only; omega, hv⟩

theorem encRows_inv (opa : Int → Int → Nat) (w : Window) (hx0 : 0 ≤ w.x0) (hx1 : w.x1 ≤ 63)
    (hi : Int) (hhi : hi ≤ 64) :
    ∀ (n : Nat) (lo : Int) (e : Enc) (L : List (Nat × Nat)), (hi - lo).toNat = n →
      Inv e L (64 * lo) →
      Inv ((cRange lo hi).foldl (encRow opa w) e)
        (L ++ (cRange lo hi).flatMap fun y => rowVisible opa y (cRange w.x0 (w.x1 + 1)))
        (64 * max hi lo) := by
  intro n
  induction n with
  | zero =>
    intro lo e L hn h
    rw [cRange_nil (by omega)]
    simpa [max_eq_right (show hi ≤ lo by omega)] using h
  | succ n ih =>
    intro lo e L hn h
    rw [cRange_cons (by omega)]
    have h2 := ih (lo + 1) _ _ (by omega) (encRow_inv opa w hx0 hx1 (y := lo) (by omega) h)
    rw [List.foldl_cons]
    rw [max_eq_left (by omega)] at h2 ⊢
    convert h2 using 1
    simp

theorem visits_encode (opa : Int → Int → Nat) (w : Window) (hx0 : 0 ≤ w.x0) (hx1 : w.x1 ≤ 63)
    (hy0 : 0 ≤ w.y0) (hy1 : w.y1 ≤ 63) :
    visits (encode opa w) 0 = .ok (Spec.visible opa w.x0 w.x1 w.y0 w.y1) := by
  have h0 : Inv { out := [], skip := w.y0 * tileSize } [] (64 * w.y0) :=
    ⟨by simp only [tileSize]; omega, 0, by simp only [tileSize]; omega, fun tail => by
      cases h : visits tail 0 <;> simp [h] <;> rfl⟩
  obtain ⟨_, p, _, hv⟩ := encRows_inv opa w hx0 hx1 (w.y1 + 1) (by omega) _ w.y0 _ _ rfl h0
  unfold encode
  rw [hv]
  simp only [visits, List.nil_append]
  show Except.ok _ = _
  simp [Spec.visible, rowVisible]

end Verif.Mask
