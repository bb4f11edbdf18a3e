import Verif.Model.Blend
import Verif.Spec.Blend
import Mathlib.Tactic.Linarith
import Mathlib.Tactic.Ring
import Mathlib.Tactic.Positivity

namespace Verif.Blend

theorem mul_le_2_30 {m o : Nat} (hm : m ≤ 32768) (ho : o ≤ 32768) : m * o ≤ 1073741824 :=
  (Nat.mul_le_mul hm ho).trans (by norm_num)

theorem topAlpha_eq {m o : Nat} (hm : m ≤ 32768) (ho : o ≤ 32768) :
    topAlpha m o = m * o / 32768 := by
  unfold topAlpha u32
  rw [Nat.mod_eq_of_lt]
  have := mul_le_2_30 hm ho
  omega

theorem topAlpha_le {m o : Nat} (hm : m ≤ 32768) (ho : o ≤ 32768) : topAlpha m o ≤ 32768 := by
  rw [topAlpha_eq hm ho]
  have := mul_le_2_30 hm ho
  omega

theorem bottomAlpha_eq {A : Nat} (h : A ≤ 32768) : bottomAlpha A = 32768 - A := by
  unfold bottomAlpha u32
  omega

theorem mul_le_A {A c : Nat} (hc : c ≤ 32768) : A * c ≤ A * 32768 := Nat.mul_le_mul_left A hc

theorem lerpChan_eq {A B c v : Nat} (hAB : A + B ≤ 32768) (hc : c ≤ 32768) (hv : v ≤ 32768) :
    lerpChan A B c v = (A * c + B * v) / 32768 := by
  have h1 := mul_le_A (A := A) hc
  have h2 := mul_le_A (A := B) hv
  unfold lerpChan u32 u16
  rw [Nat.mod_eq_of_lt (a := A * c) (by omega), Nat.mod_eq_of_lt (a := B * v) (by omega),
    Nat.mod_eq_of_lt (a := A * c + B * v) (by omega), Nat.mod_eq_of_lt (by omega)]

theorem overAlpha_eq {A B a : Nat} (hAB : A + B ≤ 32768) (ha : a ≤ 32768) :
    u16 (overAlpha A B a) = A + B * a / 32768 := by
  have h2 := mul_le_A (A := B) ha
  unfold overAlpha u32 u16
  rw [Nat.mod_eq_of_lt (a := B * a) (by omega), Nat.mod_eq_of_lt (a := A + _) (by omega),
    Nat.mod_eq_of_lt (by omega)]

/-- The alpha channel is blended like a colour channel with full colour. -/
theorem alpha_as_chan (A B a : Nat) : A + B * a / 32768 = (A * 32768 + B * a) / 32768 := by
  omega

theorem lerp_mono {A B c c' v v' : Nat} (hc : c ≤ c') (hv : v ≤ v') :
    (A * c + B * v) / 32768 ≤ (A * c' + B * v') / 32768 := by
  apply Nat.div_le_div_right
  exact Nat.add_le_add (Nat.mul_le_mul_left A hc) (Nat.mul_le_mul_left B hv)

/-- The no-overflow form of `normal`. -/
theorem normal_eq {c : Color} {o m : Nat} {p : Px} (hm : m ≤ 32768) (ho : o ≤ 32768)
    (hr : c.r ≤ 32768) (hg : c.g ≤ 32768) (hb : c.b ≤ 32768)
    (pr : p.r ≤ 32768) (pg : p.g ≤ 32768) (pb : p.b ≤ 32768) (pa : p.a ≤ 32768) :
    let A := m * o / 32768
    normal c o m p =
      { r := (A * c.r + (32768 - A) * p.r) / 32768
        g := (A * c.g + (32768 - A) * p.g) / 32768
        b := (A * c.b + (32768 - A) * p.b) / 32768
        a := (A * 32768 + (32768 - A) * p.a) / 32768 } := by
  have hA := topAlpha_le hm ho
  rw [topAlpha_eq hm ho] at hA
  intro A
  unfold normal
  simp only [topAlpha_eq hm ho, bottomAlpha_eq hA]
  rw [lerpChan_eq (by omega) hr pr, lerpChan_eq (by omega) hg pg, lerpChan_eq (by omega) hb pb,
    overAlpha_eq (by omega) pa, alpha_as_chan]

/-- The no-overflow form of `normalAndEraser`. -/
theorem normalAndEraser_eq {c : Color} {ca o m : Nat} {p : Px} (hm : m ≤ 32768) (ho : o ≤ 32768)
    (hca : ca ≤ 32768)
    (hr : c.r ≤ 32768) (hg : c.g ≤ 32768) (hb : c.b ≤ 32768)
    (pr : p.r ≤ 32768) (pg : p.g ≤ 32768) (pb : p.b ≤ 32768) (pa : p.a ≤ 32768) :
    let A := m * o / 32768
    let A' := A * ca / 32768
    A' ≤ A ∧ A ≤ 32768 ∧
    normalAndEraser c ca o m p =
      { r := (A' * c.r + (32768 - A) * p.r) / 32768
        g := (A' * c.g + (32768 - A) * p.g) / 32768
        b := (A' * c.b + (32768 - A) * p.b) / 32768
        a := (A' * 32768 + (32768 - A) * p.a) / 32768 } := by
  have hA := topAlpha_le hm ho
  rw [topAlpha_eq hm ho] at hA
  intro A A'
  have h1 := mul_le_A (A := A) hca
  have hA' : A' ≤ A := by omega
  refine ⟨hA', hA, ?_⟩
  unfold normalAndEraser
  have e : u32 (m * o / 32768 * ca) / 32768 = A' := by
    change u32 (A * ca) / 32768 = A'
    unfold u32; rw [Nat.mod_eq_of_lt (by omega)]
  simp only [topAlpha_eq hm ho, bottomAlpha_eq hA, e]
  rw [lerpChan_eq (by omega) hr pr, lerpChan_eq (by omega) hg pg, lerpChan_eq (by omega) hb pb,
    overAlpha_eq (by omega) pa, alpha_as_chan]

/-- The no-overflow form of `lockAlpha`. -/
theorem lockAlpha_eq {c : Color} {o m : Nat} {p : Px} (hm : m ≤ 32768) (ho : o ≤ 32768)
    (hr : c.r ≤ 32768) (hg : c.g ≤ 32768) (hb : c.b ≤ 32768)
    (pr : p.r ≤ 32768) (pg : p.g ≤ 32768) (pb : p.b ≤ 32768) (pa : p.a ≤ 32768) :
    let A := m * o / 32768
    let A' := A * p.a / 32768
    A' ≤ A ∧ A ≤ 32768 ∧
    lockAlpha c o m p =
      { r := (A' * c.r + (32768 - A) * p.r) / 32768
        g := (A' * c.g + (32768 - A) * p.g) / 32768
        b := (A' * c.b + (32768 - A) * p.b) / 32768
        a := p.a } := by
  have hA := topAlpha_le hm ho
  rw [topAlpha_eq hm ho] at hA
  intro A A'
  have h1 := mul_le_A (A := A) pa
  have hA' : A' ≤ A := by omega
  refine ⟨hA', hA, ?_⟩
  unfold lockAlpha
  have e : u32 (m * o / 32768 * p.a) / 32768 = A' := by
    change u32 (A * p.a) / 32768 = A'
    unfold u32; rw [Nat.mod_eq_of_lt (by omega)]
  simp only [topAlpha_eq hm ho, bottomAlpha_eq hA, e]
  rw [lerpChan_eq (by omega) hr pr, lerpChan_eq (by omega) hg pg, lerpChan_eq (by omega) hb pb]

theorem posterize_round_le {num v : Nat} (hv : v ≤ 32768) : (2 * v * num + 32768) / 65536 ≤ num := by
  have h1 : 2 * v * num ≤ 65536 * num := Nat.mul_le_mul_right num (by omega)
  have : 2 * v * num + 32768 < (num + 1) * 65536 := by omega
  have := Nat.div_lt_of_lt_mul (show 2 * v * num + 32768 < 65536 * (num + 1) by omega)
  omega

theorem posterizeLevel_le {num v : Nat} (hn : 1 ≤ num) (hv : v ≤ 32768) :
    posterizeLevel num v ≤ 32768 := by
  unfold posterizeLevel
  have h := Nat.mul_le_mul_left 32768 (posterize_round_le (num := num) hv)
  calc _ ≤ 32768 * num / num := Nat.div_le_div_right h
    _ = 32768 := Nat.mul_div_cancel _ (by omega)

theorem posterize_eq {num o m : Nat} {p : Px} (hn : 1 ≤ num) (hm : m ≤ 32768) (ho : o ≤ 32768)
    (pr : p.r ≤ 32768) (pg : p.g ≤ 32768) (pb : p.b ≤ 32768) :
    let A := m * o / 32768
    posterize num o m p =
      { r := (A * posterizeLevel num p.r + (32768 - A) * p.r) / 32768
        g := (A * posterizeLevel num p.g + (32768 - A) * p.g) / 32768
        b := (A * posterizeLevel num p.b + (32768 - A) * p.b) / 32768
        a := p.a } := by
  have hA := topAlpha_le hm ho
  rw [topAlpha_eq hm ho] at hA
  intro A
  unfold posterize
  simp only [topAlpha_eq hm ho, bottomAlpha_eq hA]
  rw [lerpChan_eq (by omega) (posterizeLevel_le hn pr) pr,
    lerpChan_eq (by omega) (posterizeLevel_le hn pg) pg,
    lerpChan_eq (by omega) (posterizeLevel_le hn pb) pb]

/-- Mixing two values with weights that add up to 2^15 stays between them. -/
theorem lerp_between {A c v : Nat} (hA : A ≤ 32768) :
    min c v ≤ (A * c + (32768 - A) * v) / 32768 ∧ (A * c + (32768 - A) * v) / 32768 ≤ max c v := by
  obtain ⟨B, hB⟩ : ∃ B, 32768 - A = B := ⟨_, rfl⟩
  have hAB : A + B = 32768 := by omega
  rw [hB]
  constructor
  · rw [Nat.le_div_iff_mul_le (by norm_num)]
    have h1 := Nat.mul_le_mul_left A (Nat.min_le_left c v)
    have h2 := Nat.mul_le_mul_left B (Nat.min_le_right c v)
    have : min c v * 32768 = A * min c v + B * min c v := by rw [← hAB]; ring
    omega
  · have h1 := Nat.mul_le_mul_left A (Nat.le_max_left c v)
    have h2 := Nat.mul_le_mul_left B (Nat.le_max_right c v)
    have e : max c v * 32768 = A * max c v + B * max c v := by rw [← hAB]; ring
    exact Nat.div_le_of_le_mul (by omega)

/-- A floor of a mix of a smaller weight. -/
theorem lerp_le_alpha {A A' a c v : Nat} (hA : A ≤ 32768) (hA' : A' * 32768 ≤ A * a)
    (hc : c ≤ 32768) (hv : v ≤ a) : (A' * c + (32768 - A) * v) / 32768 ≤ a := by
  obtain ⟨B, hB⟩ : ∃ B, 32768 - A = B := ⟨_, rfl⟩
  have hAB : A + B = 32768 := by omega
  rw [hB]
  have h1 := Nat.mul_le_mul_left A' hc
  have h2 := Nat.mul_le_mul_left B hv
  have e : 32768 * a = A * a + B * a := by rw [← hAB]; ring
  exact Nat.div_le_of_le_mul (by omega)

end Verif.Blend
