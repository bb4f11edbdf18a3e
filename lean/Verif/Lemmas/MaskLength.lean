import Verif.Lemmas.Mask

namespace Verif.Mask

/-- Entries written plus pixels skipped, minus pixels passed. -/
def excess (e : Enc) (P : Int) : Int := e.out.length + e.skip - P

theorem encPixel_skip_nonneg {e : Enc} (h : 0 ≤ e.skip) (o : Nat) : 0 ≤ (encPixel e o).skip := by
  unfold encPixel; split <;> [skip; split] <;> simp only <;> omega

theorem encPixel_excess {e : Enc} (h : 0 ≤ e.skip) (o : Nat) (P : Int) :
    excess (encPixel e o) (P + 1) ≤ excess e P + 1 ∧
    (o = 0 ∨ e.skip = 0 → excess (encPixel e o) (P + 1) = excess e P) := by
  unfold encPixel excess
  split
  · simp only; omega
  · split
    · rename_i h1 h2
      simp only [List.length_append, List.length_cons, List.length_nil]
      push_cast
      exact ⟨by omega, by rintro (h | h) <;> contradiction⟩
    · simp only [List.length_append, List.length_cons, List.length_nil]
      push_cast
      omega

theorem encPixel_skip_of_visible (e : Enc) {o : Nat} (h : o ≠ 0) : (encPixel e o).skip = 0 := by
  unfold encPixel; simp only [h, if_false]; split <;> simp_all

/-- The rest of a row costs nothing once the block of visible pixels has begun. -/
theorem cols_after {opa : Int → Int → Nat} (hc : Spec.RowsConvex opa) (y hi : Int) :
    ∀ (n : Nat) (lo : Int) (e : Enc) (P : Int), (hi - lo).toNat = n → 0 ≤ e.skip →
      (∃ a, a < lo ∧ opa a y ≠ 0 ∧ (e.skip = 0 ∨ ∃ b, a ≤ b ∧ b < lo ∧ opa b y = 0)) →
      excess ((cRange lo hi).foldl (fun e xp => encPixel e (opa xp y)) e) (P + (max hi lo - lo)) =
        excess e P ∧
      0 ≤ ((cRange lo hi).foldl (fun e xp => encPixel e (opa xp y)) e).skip := by
  intro n
  induction n with
  | zero =>
    intro lo e P hn hs _
    rw [cRange_nil (by omega), max_eq_right (by omega)]
    simpa using hs
  | succ n ih =>
    intro lo e P hn hs hex
    have hlt : lo < hi := by clear hex; omega
    have hlt' : lo + 1 ≤ hi := by clear hex; omega
    have hn' : (hi - (lo + 1)).toNat = n := by clear hex; omega
    obtain ⟨a, ha, hva, hd⟩ := hex
    rw [cRange_cons hlt, List.foldl_cons]
    have h1 := (encPixel_excess hs (opa lo y) P).2
    have key : (opa lo y = 0 ∨ e.skip = 0) ∧
        (∃ a, a < lo + 1 ∧ opa a y ≠ 0 ∧ ((encPixel e (opa lo y)).skip = 0 ∨
          ∃ b, a ≤ b ∧ b < lo + 1 ∧ opa b y = 0)) := by
      by_cases ho : opa lo y = 0
      · exact ⟨.inl ho, a, by omega, hva, .inr ⟨lo, by omega, by omega, ho⟩⟩
      · refine ⟨.inr ?_, a, by omega, hva, .inl (encPixel_skip_of_visible e ho)⟩
        rcases hd with hd | ⟨b, hab, hbl, hb⟩
        · exact hd
        · exact absurd hb (hc y a b lo hab (by omega) hva ho)
    have h2 := ih (lo + 1) (encPixel e (opa lo y)) (P + 1) hn' (encPixel_skip_nonneg hs _)
      key.2
    rw [max_eq_left hlt'] at h2
    rw [max_eq_left hlt.le]
    rw [h1 key.1] at h2
    have : P + 1 + (hi - (lo + 1)) = P + (hi - lo) := by ring
    rwa [this] at h2

theorem cols_excess {opa : Int → Int → Nat} (hc : Spec.RowsConvex opa) (y hi : Int) :
    ∀ (n : Nat) (lo : Int) (e : Enc) (P : Int), (hi - lo).toNat = n → 0 ≤ e.skip →
      excess ((cRange lo hi).foldl (fun e xp => encPixel e (opa xp y)) e) (P + (max hi lo - lo)) ≤
        excess e P + 1 ∧
      0 ≤ ((cRange lo hi).foldl (fun e xp => encPixel e (opa xp y)) e).skip := by
  intro n
  induction n with
  | zero =>
    intro lo e P hn hs
    rw [cRange_nil (by omega), max_eq_right (by omega)]
    simpa using hs
  | succ n ih =>
    intro lo e P hn hs
    rw [cRange_cons (by omega), List.foldl_cons]
    have h1 := encPixel_excess hs (opa lo y) P
    have hs' := encPixel_skip_nonneg hs (opa lo y)
    have e1 : P + 1 + (max hi (lo + 1) - (lo + 1)) = P + (max hi lo - lo) := by
      rw [max_eq_left (by omega), max_eq_left (by omega)]; ring
    by_cases ho : opa lo y = 0
    · have h2 := ih (lo + 1) (encPixel e (opa lo y)) (P + 1) (by omega) hs'
      rw [h1.2 (.inl ho), e1] at h2
      exact h2
    · have h2 := cols_after hc y hi n (lo + 1) (encPixel e (opa lo y)) (P + 1) (by omega) hs'
        ⟨lo, by omega, ho, .inl (encPixel_skip_of_visible e ho)⟩
      rw [e1] at h2
      exact ⟨by rw [h2.1]; exact h1.1, h2.2⟩

theorem row_excess {opa : Int → Int → Nat} (hc : Spec.RowsConvex opa) (w : Window)
    (hx0 : 0 ≤ w.x0) (hx1 : w.x1 ≤ 63) (y : Int) {e : Enc} (hs : 0 ≤ e.skip) (P : Int) :
    excess (encRow opa w e y) (P + 64) ≤ excess e P + 1 ∧ 0 ≤ (encRow opa w e y).skip := by
  have h := cols_excess hc y (w.x1 + 1) _ w.x0 { e with skip := e.skip + w.x0 } (P + w.x0) rfl
    (by simp only; omega)
  unfold encRow
  by_cases hw : w.x0 ≤ w.x1 + 1
  · rw [max_eq_left hw] at h ⊢
    simp only [tileSize, excess] at h ⊢
    omega
  · rw [cRange_nil (by omega), max_eq_right (by omega)] at *
    simp only [tileSize, excess, List.foldl_nil] at h ⊢
    omega

theorem rows_excess {opa : Int → Int → Nat} (hc : Spec.RowsConvex opa) (w : Window)
    (hx0 : 0 ≤ w.x0) (hx1 : w.x1 ≤ 63) :
    ∀ (ys : List Int) (e : Enc) (P : Int), 0 ≤ e.skip →
      excess (ys.foldl (encRow opa w) e) (P + 64 * ys.length) ≤ excess e P + ys.length ∧
      0 ≤ (ys.foldl (encRow opa w) e).skip := by
  intro ys
  induction ys with
  | nil => intro e P hs; simpa using hs
  | cons y ys ih =>
    intro e P hs
    have h1 := row_excess hc w hx0 hx1 y hs P
    have h2 := ih (encRow opa w e y) (P + 64) h1.2
    rw [List.foldl_cons, List.length_cons]
    have : P + 64 * ((ys.length + 1 : Nat) : Int) = P + 64 + 64 * ys.length := by push_cast; ring
    rw [this]
    push_cast
    exact ⟨by omega, h2.2⟩

theorem encode_length_convex {opa : Int → Int → Nat} (hc : Spec.RowsConvex opa) (w : Window)
    (hx0 : 0 ≤ w.x0) (hx1 : w.x1 ≤ 63) (hy0 : 0 ≤ w.y0) (hy1 : w.y1 ≤ 63) :
    (encode opa w).length ≤ 4162 := by
  have h := rows_excess hc w hx0 hx1 (cRange w.y0 (w.y1 + 1))
    { out := [], skip := w.y0 * tileSize } (64 * w.y0) (by simp only [tileSize]; omega)
  have hl : ((cRange w.y0 (w.y1 + 1)).length : Int) = max (w.y1 + 1 - w.y0) 0 := by
    simp [cRange]
  unfold encode
  simp only [List.length_append, List.length_cons, List.length_nil]
  simp only [excess, tileSize, List.length_nil] at h ⊢
  rw [hl] at h
  rcases le_or_gt (w.y1 + 1 - w.y0) 0 with hle | hgt
  · have hn : cRange w.y0 (w.y1 + 1) = [] := cRange_nil (by omega)
    rw [hn]; simp
  · rw [max_eq_left hgt.le] at h
    omega

/-! Without convexity: three entries per pixel of the window. -/

theorem encPixel_length (e : Enc) (o : Nat) : (encPixel e o).out.length ≤ e.out.length + 3 := by
  unfold encPixel; split <;> [skip; split] <;> simp

theorem cols_length (opa : Int → Int → Nat) (y : Int) :
    ∀ (xs : List Int) (e : Enc),
      (xs.foldl (fun e xp => encPixel e (opa xp y)) e).out.length ≤ e.out.length + 3 * xs.length := by
  intro xs
  induction xs with
  | nil => intro e; simp
  | cons x xs ih =>
    intro e
    have h1 := ih (encPixel e (opa x y))
    have h2 := encPixel_length e (opa x y)
    simp only [List.foldl_cons, List.length_cons]
    omega

theorem rows_length (opa : Int → Int → Nat) (w : Window) :
    ∀ (ys : List Int) (e : Enc),
      (ys.foldl (encRow opa w) e).out.length ≤
        e.out.length + ys.length * (3 * (cRange w.x0 (w.x1 + 1)).length) := by
  intro ys
  induction ys with
  | nil => intro e; simp
  | cons y ys ih =>
    intro e
    have h1 := ih (encRow opa w e y)
    have h2 : (encRow opa w e y).out.length ≤
        e.out.length + 3 * (cRange w.x0 (w.x1 + 1)).length :=
      cols_length opa y (cRange w.x0 (w.x1 + 1)) { e with skip := e.skip + w.x0 }
    simp only [List.foldl_cons, List.length_cons]
    have : (ys.length + 1) * (3 * (cRange w.x0 (w.x1 + 1)).length) =
      ys.length * (3 * (cRange w.x0 (w.x1 + 1)).length) + 3 * (cRange w.x0 (w.x1 + 1)).length := by
      ring
    omega

theorem encode_length_small (opa : Int → Int → Nat) (w : Window) (hx : w.x1 - w.x0 ≤ 8)
    (hy : w.y1 - w.y0 ≤ 8) : (encode opa w).length ≤ 245 := by
  have h := rows_length opa w (cRange w.y0 (w.y1 + 1)) { out := [], skip := w.y0 * tileSize }
  have h1 : (cRange w.x0 (w.x1 + 1)).length ≤ 9 := by simp [cRange]; omega
  have h2 : (cRange w.y0 (w.y1 + 1)).length ≤ 9 := by simp [cRange]; omega
  have h3 : (cRange w.y0 (w.y1 + 1)).length * (3 * (cRange w.x0 (w.x1 + 1)).length) ≤ 9 * (3 * 9) :=
    Nat.mul_le_mul h2 (by omega)
  unfold encode
  simp only [List.length_append, List.length_cons, List.length_nil] at h ⊢
  omega

/-! A checkerboard pattern -/

theorem checker_cols (f : Int → Nat) (hf : ∀ x, f x = if x % 2 = 0 then 1 else 0) :
    ∀ (n : Nat) (lo : Int) (e : Enc), lo % 2 = 0 → e.skip = 1 →
      ((cRange lo (lo + 2 * n)).foldl (fun e xp => encPixel e (f xp)) e).out.length =
        e.out.length + 3 * n ∧
      ((cRange lo (lo + 2 * n)).foldl (fun e xp => encPixel e (f xp)) e).skip = 1 := by
  intro n
  induction n with
  | zero => intro lo e h1 h2; rw [cRange_nil (by omega)]; simpa using h2
  | succ n ih =>
    intro lo e h1 h2
    rw [cRange_cons (by omega), cRange_cons (by omega)]
    simp only [List.foldl_cons]
    rw [hf lo, hf (lo + 1), if_pos h1, if_neg (by omega)]
    have e2 : encPixel (encPixel e 1) 0 = ⟨e.out ++ [0, 4, 1], 1⟩ := by
      simp [encPixel, h2]
    have e3 : lo + 2 * ((n + 1 : Nat) : Int) = lo + 1 + 1 + 2 * n := by push_cast; ring
    rw [e2, e3]
    have := ih (lo + 1 + 1) ⟨e.out ++ [0, 4, 1], 1⟩ (by omega) rfl
    refine ⟨?_, this.2⟩
    rw [this.1]
    simp
    ring

theorem checkerboard_length :
    (encode (fun x _ => if x % 2 = 0 then 1 else 0) ⟨0, 63, 0, 63⟩).length = 6144 := by
  have row : ∀ (e : Enc) (y : Int), e.skip = 1 →
      (encRow (fun x _ => if x % 2 = 0 then 1 else 0) ⟨0, 63, 0, 63⟩ e y).out.length =
        e.out.length + 96 ∧
      (encRow (fun x _ => if x % 2 = 0 then 1 else 0) ⟨0, 63, 0, 63⟩ e y).skip = 1 := by
    intro e y h
    have := checker_cols (fun x => if x % 2 = 0 then 1 else 0) (fun _ => rfl) 32 0
      { e with skip := e.skip + 0 } rfl (by simpa using h)
    unfold encRow
    simp only [tileSize]
    refine ⟨?_, ?_⟩
    · exact this.1
    · have h2 := this.2
      norm_num at h2 ⊢
      exact h2
  have rows : ∀ (ys : List Int) (e : Enc), e.skip = 1 →
      (ys.foldl (encRow (fun x _ => if x % 2 = 0 then 1 else 0) ⟨0, 63, 0, 63⟩) e).out.length =
        e.out.length + 96 * ys.length := by
    intro ys
    induction ys with
    | nil => intro e _; simp
    | cons y ys ih =>
      intro e h
      rw [List.foldl_cons, ih _ (row e y h).2, (row e y h).1, List.length_cons]
      ring
  unfold encode
  simp only [tileSize]
  rw [cRange_cons (by norm_num), List.foldl_cons, List.length_append]
  have h0 : (encRow (fun x _ => if x % 2 = 0 then 1 else 0) ⟨0, 63, 0, 63⟩ ⟨[], 0 * 64⟩ 0).skip = 1 ∧
      (encRow (fun x _ => if x % 2 = 0 then 1 else 0) ⟨0, 63, 0, 63⟩ ⟨[], 0 * 64⟩ 0).out.length = 94 := by
    decide +kernel
  rw [rows _ _ h0.1, h0.2]
  simp [cRange]

end Verif.Mask
