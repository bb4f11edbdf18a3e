import Verif.Lemmas.Engine
import Verif.Spec.EngineLaws

/-! # Helper lemmas: the dab loop ends -/

namespace Verif.Engine
open Verif.Mask Verif.Color Verif.Spectral Verif.Map

variable {K R σ : Type} [Field K] [LinearOrder K]

/-! ### Distances -/

section
variable [IsStrictOrderedRing K]

theorem le_of_sq_le {a b : K} (hb : 0 ≤ b) (h : a * a ≤ b * b) : a ≤ b := by
  by_contra hc
  rw [not_le] at hc
  have : b * b < a * a := by nlinarith
  exact absurd h (not_le.mpr this)

theorem hypot_nonneg {e : Env K R σ} (L : Laws e) (a b : K) : 0 ≤ hypot e a b :=
  L.sqrt_nonneg _ (add_nonneg (mul_self_nonneg a) (mul_self_nonneg b))

theorem hypot_sq {e : Env K R σ} (L : Laws e) (a b : K) : hypot e a b * hypot e a b = a * a + b * b :=
  L.sqrt_sq _ (add_nonneg (mul_self_nonneg a) (mul_self_nonneg b))

theorem eq_of_sq_eq {a b : K} (ha : 0 ≤ a) (hb : 0 ≤ b) (h : a * a = b * b) : a = b :=
  le_antisymm (le_of_sq_le hb h.le) (le_of_sq_le ha h.ge)

theorem hypot_scale {e : Env K R σ} (L : Laws e) {c : K} (hc : 0 ≤ c) (a b : K) :
    hypot e (c * a) (c * b) = c * hypot e a b := by
  refine eq_of_sq_eq (hypot_nonneg L _ _) (mul_nonneg hc (hypot_nonneg L _ _)) ?_
  rw [hypot_sq L, show c * hypot e a b * (c * hypot e a b) = c * c * (hypot e a b * hypot e a b) by ring, hypot_sq L]
  ring

/-- The distance as seen by an elliptical dab. -/
def ellipse (e : Env K R σ) (ratio angle dx dy : K) : K :=
  if ratio > 1 then
    hypot e ((dy * e.cos angle - dx * e.sin angle) * ratio) (dy * e.sin angle + dx * e.cos angle)
  else hypot e dx dy

theorem ellipse_nonneg {e : Env K R σ} (L : Laws e) (ratio angle dx dy : K) : 0 ≤ ellipse e ratio angle dx dy := by
  unfold ellipse
  split_ifs <;> exact hypot_nonneg L _ _

theorem ellipse_scale {e : Env K R σ} (L : Laws e) {c : K} (hc : 0 ≤ c) (ratio angle dx dy : K) :
    ellipse e ratio angle (c * dx) (c * dy) = c * ellipse e ratio angle dx dy := by
  unfold ellipse
  split_ifs
  · rw [← hypot_scale L hc]
    congr 1 <;> ring
  · exact hypot_scale L hc _ _

theorem ellipse_le {e : Env K R σ} (L : Laws e) {ρ : K} (h1 : 1 ≤ ρ) {ratio : K} (hr : ratio ≤ ρ) (angle dx dy : K) :
    ellipse e ratio angle dx dy ≤ ρ * hypot e dx dy := by
  have hh := hypot_nonneg L dx dy
  unfold ellipse
  split_ifs with h
  · refine le_of_sq_le (mul_nonneg (by linarith) hh) ?_
    rw [hypot_sq L, show ρ * hypot e dx dy * (ρ * hypot e dx dy) = ρ * ρ * (hypot e dx dy * hypot e dx dy) by ring,
      hypot_sq L]
    have t := L.trig angle
    set c := e.cos angle
    set s := e.sin angle
    have k : dx * dx + dy * dy = (dy * c - dx * s) * (dy * c - dx * s) + (dy * s + dx * c) * (dy * s + dx * c) := by
      linear_combination (-(dx * dx + dy * dy)) * t
    rw [k]
    set u := dy * c - dx * s
    set v := dy * s + dx * c
    have r2 : ratio * ratio ≤ ρ * ρ := mul_le_mul hr hr (by linarith) (by linarith)
    have o2 : 1 ≤ ρ * ρ := by nlinarith
    nlinarith [mul_self_nonneg u, mul_self_nonneg v, mul_nonneg (sub_nonneg.mpr r2) (mul_self_nonneg u),
      mul_nonneg (sub_nonneg.mpr o2) (mul_self_nonneg v)]
  · exact le_mul_of_one_le_left hh h1

end

section
variable [FloorRing K]

/-- `count_dabs_to` written with the elliptical distance; `a` is the radius in use. -/
theorem countDabs_eq (e : Env K R σ) (b : Brush K R) (x y dt : K) :
    (countDabs e b x y dt).1 = max 0
      (ellipse e b.st.ratio b.st.angle (x - b.st.x) (y - b.st.y) / (countDabs e b x y dt).2.st.actualRadius *
          b.st.dabsPerActualRadius +
        ellipse e b.st.ratio b.st.angle (x - b.st.x) (y - b.st.y) /
          clampK (e.exp (b.baseval sRadiusLogarithmic)) (1 / 5) 1000 * b.st.dabsPerBasicRadius +
        dt * b.st.dabsPerSecond) := by
  unfold countDabs ellipse
  dsimp only
  by_cases h : b.st.actualRadius = 0
  · simp only [if_pos h]
    split_ifs with hr hn hn
    · rw [max_eq_left hn.le]
    · rw [max_eq_right (not_lt.mp hn)]
    · rw [max_eq_left hn.le]
    · rw [max_eq_right (not_lt.mp hn)]
  · simp only [if_neg h]
    split_ifs with hr hn hn
    · rw [max_eq_left hn.le]
    · rw [max_eq_right (not_lt.mp hn)]
    · rw [max_eq_left hn.le]
    · rw [max_eq_right (not_lt.mp hn)]

/-- What else `count_dabs_to` does. -/
theorem countDabs_st (e : Env K R σ) (b : Brush K R) (x y dt : K) :
    (countDabs e b x y dt).2 = { b with
      st := { b.st with
        actualRadius := (if b.st.actualRadius = 0 then clampK (e.exp (b.baseval sRadiusLogarithmic)) (1 / 5) 1000
          else b.st.actualRadius) } } := by
  unfold countDabs
  dsimp only
  split_ifs <;> rfl

end

/-! ### Bounded dynamics -/

/-- The settings that decide about the number of dabs are bounded, whatever the inputs. -/
structure BoundedDynamics (s : Load.Brush K) (M ρ : K) : Prop where
  nonneg : 0 ≤ M
  one_le : 1 ≤ ρ
  actual : ∀ i, calculate (s sDabsPerActualRadius) i ≤ M
  basic : ∀ i, calculate (s sDabsPerBasicRadius) i ≤ M
  second : ∀ i, calculate (s sDabsPerSecond) i ≤ M
  ratio : ∀ i, calculate (s sEllipticalDabRatio) i ≤ ρ

/-- The same for the values the brush works with at the moment; its radius is unset or at least 1/5. -/
structure BoundedState (st : State K) (M ρ : K) : Prop where
  actual : st.dabsPerActualRadius ≤ M
  basic : st.dabsPerBasicRadius ≤ M
  second : st.dabsPerSecond ≤ M
  ratio : st.ratio ≤ ρ
  radius : st.actualRadius = 0 ∨ 1 / 5 ≤ st.actualRadius

section
variable [FloorRing K] [IsStrictOrderedRing K]

theorem update_bounded {e : Env K R σ} {b b' : Brush K R} {s : Step K} {M ρ : K} (hd : BoundedDynamics b.settings M ρ)
    (h : update e b s = .ok b') : BoundedState b'.st M ρ := by
  rw [update_eq h]
  refine ⟨hd.actual _, hd.basic _, hd.second _, hd.ratio _, .inr ?_⟩
  show 1 / 5 ≤ finalRadius e _
  unfold finalRadius
  dsimp only
  split_ifs
  · norm_num
  · exact le_refl _
  · norm_num
  · exact not_lt.mp ‹_›

theorem clampK_ge {a lo hi : K} (h : lo ≤ hi) : lo ≤ clampK a lo hi ∧ clampK a lo hi ≤ hi := by
  unfold clampK
  split_ifs with h1 h2
  · exact ⟨h, le_refl _⟩
  · exact ⟨le_refl _, h⟩
  · exact ⟨not_lt.mp h2, not_lt.mp h1⟩

theorem countDabs_bounded {e : Env K R σ} {b : Brush K R} {M ρ : K} (h : BoundedState b.st M ρ) (x y dt : K) :
    BoundedState (countDabs e b x y dt).2.st M ρ ∧ 1 / 5 ≤ (countDabs e b x y dt).2.st.actualRadius := by
  rw [countDabs_st]
  have k : (1 / 5 : K) ≤ if b.st.actualRadius = 0 then clampK (e.exp (b.baseval sRadiusLogarithmic)) (1 / 5) 1000
      else b.st.actualRadius := by
    split_ifs with h0
    · exact (clampK_ge (by norm_num)).1
    · exact h.radius.resolve_left h0
  exact ⟨⟨h.actual, h.basic, h.second, h.ratio, .inr k⟩, k⟩

/-- The most dabs that a way of length `dist` and a time `dt` can make due. -/
def potential (M ρ dist dt : K) : K := 10 * M * ρ * dist + M * dt

theorem mul_bound {d r p M : K} (hd : 0 ≤ d) (hr : 1 / 5 ≤ r) (hp : p ≤ M) (hM : 0 ≤ M) : d / r * p ≤ 5 * M * d := by
  have r0 : 0 < r := lt_of_lt_of_le (by norm_num) hr
  have h1 : d / r ≤ 5 * d := by
    rw [div_le_iff₀ r0]; nlinarith
  have h2 : 0 ≤ d / r := div_nonneg hd r0.le
  calc d / r * p ≤ d / r * M := mul_le_mul_of_nonneg_left hp h2
    _ ≤ 5 * d * M := mul_le_mul_of_nonneg_right h1 hM
    _ = 5 * M * d := by ring

theorem countDabs_le {e : Env K R σ} (L : Laws e) {b : Brush K R} {M ρ : K} (hM : 0 ≤ M) (hρ : 1 ≤ ρ)
    (h : BoundedState b.st M ρ) (x y : K) {dt : K} (hdt : 0 ≤ dt) :
    (countDabs e b x y dt).1 ≤ potential M ρ (hypot e (x - b.st.x) (y - b.st.y)) dt := by
  obtain ⟨-, hr⟩ := countDabs_bounded (e := e) h x y dt
  rw [countDabs_eq]
  have hE := ellipse_nonneg L b.st.ratio b.st.angle (x - b.st.x) (y - b.st.y)
  have hE' := ellipse_le L hρ h.ratio b.st.angle (x - b.st.x) (y - b.st.y)
  have hh := hypot_nonneg L (x - b.st.x) (y - b.st.y)
  generalize (countDabs e b x y dt).2.st.actualRadius = ar at *
  have hb := (clampK_ge (a := e.exp (b.baseval sRadiusLogarithmic)) (lo := 1 / 5) (hi := 1000) (by norm_num)).1
  generalize clampK (e.exp (b.baseval sRadiusLogarithmic)) (1 / 5) 1000 = br at *
  generalize ellipse e b.st.ratio b.st.angle (x - b.st.x) (y - b.st.y) = d at *
  generalize hypot e (x - b.st.x) (y - b.st.y) = D at *
  have k1 := mul_bound hE hr h.actual hM
  have k2 := mul_bound hE hb h.basic hM
  have k3 : dt * b.st.dabsPerSecond ≤ M * dt := by
    rw [mul_comm M]; exact mul_le_mul_of_nonneg_left h.second hdt
  have k4 : 10 * M * d ≤ 10 * M * ρ * D := by
    have : 10 * M * d ≤ 10 * M * (ρ * D) := mul_le_mul_of_nonneg_left hE' (by linarith)
    linarith [mul_assoc (10 * M) ρ D]
  unfold potential
  refine max_le ?_ ?_
  · have := mul_nonneg (mul_nonneg (by linarith : (0 : K) ≤ 10 * M) (by linarith : (0 : K) ≤ ρ)) hh
    linarith [mul_nonneg hM hdt]
  · linarith

/-! ### The loop -/

/-- What holds at every turn. -/
structure LoopOk (e : Env K R σ) (ev : Event K) (s : Load.Brush K) (x y M ρ : K) (l : Loop K R σ) : Prop where
  settings : l.b.settings = s
  moved0 : 0 ≤ l.moved
  moved1 : l.moved < 1
  todo0 : 0 ≤ l.todo
  time : 0 ≤ l.dtimeLeft
  state : BoundedState l.b.st M ρ
  todo : l.todo ≤ potential M ρ (hypot e (x - l.b.st.x) (y - l.b.st.y)) l.dtimeLeft

/-- What is left to do. -/
def remaining (e : Env K R σ) (x y M ρ : K) (l : Loop K R σ) : K :=
  l.moved + potential M ρ (hypot e (x - l.b.st.x) (y - l.b.st.y)) l.dtimeLeft

theorem fraction_range {moved todo : K} (h0 : 0 ≤ moved) (h1 : moved < 1) (hz : todo ≠ 0) (ht : 0 ≤ todo)
    (hc : moved + todo ≥ 1) :
    0 < todo ∧ 0 ≤ (if moved > 0 then 1 - moved else 1) / todo ∧ (if moved > 0 then 1 - moved else 1) / todo ≤ 1 ∧
      (if moved > 0 then 1 - moved else 1) = 1 - moved := by
  have ht : 0 < todo := lt_of_le_of_ne ht (Ne.symm hz)
  have e : (if moved > 0 then 1 - moved else 1) = 1 - moved := by
    split_ifs with hh
    · rfl
    · have : moved = 0 := le_antisymm (not_lt.mp hh) h0
      rw [this]; ring
  rw [e]
  exact ⟨ht, div_nonneg (by linarith) ht.le, (div_le_one ht).mpr (by linarith), rfl⟩

/-- Where a turn leaves the brush. -/
theorem dabStep_xy {e : Env K R σ} {ev : Event K} {x y : K} {l l' : Loop K R σ} (h : dabStep e ev x y l = .ok l') :
    l'.b.st.x = l.b.st.x + (if l.moved > 0 then 1 - l.moved else 1) / l.todo * (x - l.b.st.x) ∧
    l'.b.st.y = l.b.st.y + (if l.moved > 0 then 1 - l.moved else 1) / l.todo * (y - l.b.st.y) ∧
    l'.b.settings = l.b.settings := by
  obtain ⟨hz, b1, p, b2, hu, hd, h2, e1⟩ := dabStep_eq h
  have f := drawDab_frame hd
  rw [e1]
  simp only
  rw [countDabs_st, h2]
  simp only
  rw [f.st, f.settings, update_eq hu]
  exact ⟨rfl, rfl, rfl⟩

theorem dabStep_loopOk {e : Env K R σ} (L : Laws e) {ev : Event K} {s : Load.Brush K} {x y M ρ : K}
    (hs : BoundedDynamics s M ρ) {l l' : Loop K R σ} (hc : l.moved + l.todo ≥ 1) (hl : LoopOk e ev s x y M ρ l)
    (h : dabStep e ev x y l = .ok l') :
    LoopOk e ev s x y M ρ l' ∧ remaining e x y M ρ l' + 1 ≤ remaining e x y M ρ l := by
  obtain ⟨ex, ey, es⟩ := dabStep_xy h
  obtain ⟨hz, b1, p, b2, hu, hd, h2, e1⟩ := dabStep_eq h
  obtain ⟨ht, f0, f1, ed⟩ := fraction_range hl.moved0 hl.moved1 hz hl.todo0 hc
  set f := (if l.moved > 0 then 1 - l.moved else 1) / l.todo with hf
  have bs : BoundedState b2.st M ρ := by
    have k := update_bounded (M := M) (ρ := ρ) (by rw [hl.settings]; exact hs) hu
    rw [h2]
    simp only
    rw [(drawDab_frame hd).st]
    exact ⟨k.actual, k.basic, k.second, k.ratio, k.radius⟩
  have hleft : 0 ≤ l.dtimeLeft - f * l.dtimeLeft := by nlinarith [hl.time, mul_nonneg (sub_nonneg.mpr f1) hl.time]
  have em : l'.moved = 0 := by
    rw [e1]; simp only
    split_ifs with hh
    · rfl
    · exact le_antisymm (not_lt.mp hh) hl.moved0
  have et : l'.dtimeLeft = (1 - f) * l.dtimeLeft := by rw [e1]; simp only; ring
  have cst : ∀ dt, (countDabs e b2 x y dt).2.st.x = b2.st.x ∧ (countDabs e b2 x y dt).2.st.y = b2.st.y := by
    intro dt; rw [countDabs_st]; exact ⟨rfl, rfl⟩
  have hyp : hypot e (x - l'.b.st.x) (y - l'.b.st.y) = (1 - f) * hypot e (x - l.b.st.x) (y - l.b.st.y) := by
    rw [← hypot_scale L (sub_nonneg.mpr f1), ex, ey]
    congr 1 <;> ring
  have hpot : potential M ρ (hypot e (x - l'.b.st.x) (y - l'.b.st.y)) l'.dtimeLeft =
      (1 - f) * potential M ρ (hypot e (x - l.b.st.x) (y - l.b.st.y)) l.dtimeLeft := by
    rw [hyp, et]; unfold potential; ring
  refine ⟨⟨by rw [es, hl.settings], em.ge, em ▸ zero_lt_one, ?_, ?_, ?_, ?_⟩, ?_⟩
  · rw [e1]; exact countDabs_nonneg _ _ _ _ _
  · rw [et]; exact mul_nonneg (sub_nonneg.mpr f1) hl.time
  · rw [e1]; exact (countDabs_bounded bs x y (l.dtimeLeft - f * l.dtimeLeft)).1
  · have k := countDabs_le L hs.nonneg hs.one_le bs x y hleft
    rw [e1]
    simp only
    rw [(cst _).1, (cst _).2]
    exact k
  · unfold remaining
    rw [hpot, em]
    set P := potential M ρ (hypot e (x - l.b.st.x) (y - l.b.st.y)) l.dtimeLeft
    have hP : l.todo ≤ P := hl.todo
    have k : (1 - l.moved) ≤ f * P := by
      rw [hf, ed, div_mul_eq_mul_div, le_div_iff₀ ht]
      exact mul_le_mul_of_nonneg_left hP (by linarith [hl.moved1])
    linarith

/-- The loop ends within as many turns as dabs can become due. `I` is anything that every turn keeps. -/
theorem dabLoop_fuel {e : Env K R σ} (L : Laws e) {ev : Event K} {s : Load.Brush K} {x y M ρ : K}
    (hs : BoundedDynamics s M ρ) (I : Loop K R σ → Prop) (hI : ∀ l l', I l → dabStep e ev x y l = .ok l' → I l')
    (hf : ∀ l, I l → LoopOk e ev s x y M ρ l → l.moved + l.todo ≥ 1 → dabStep e ev x y l ≠ .error .outOfFuel)
    (fuel : Nat) : ∀ l : Loop K R σ, I l → LoopOk e ev s x y M ρ l →
      remaining e x y M ρ l < fuel + 1 → dabLoop e ev x y fuel l ≠ .error .outOfFuel := by
  induction fuel with
  | zero =>
    intro l _ hl hr
    unfold dabLoop
    rw [if_neg]
    · intro h; cases h
    · have := hl.todo
      unfold remaining at hr
      simp only [Nat.cast_zero, zero_add] at hr
      exact not_le.mpr (by linarith)
  | succ fuel ih =>
    intro l il hl hr
    unfold dabLoop
    by_cases hc : l.moved + l.todo ≥ 1
    · rw [if_pos hc]
      cases hd : dabStep e ev x y l with
      | error f =>
        intro h
        have : (.error f : Except Fault (Loop K R σ)) = .error .outOfFuel := h
        cases this
        exact hf l il hl hc hd
      | ok l1 =>
        obtain ⟨k1, k2⟩ := dabStep_loopOk L hs hc hl hd
        refine ih l1 (hI l l1 il hd) k1 ?_
        push_cast at hr
        linarith
    · rw [if_neg hc]
      intro h; cases h

/-- More turns than needed change nothing. -/
theorem dabLoop_mono {e : Env K R σ} {ev : Event K} {x y : K} (n : Nat) : ∀ (m : Nat) (l : Loop K R σ), n ≤ m →
    dabLoop e ev x y n l ≠ .error .outOfFuel → dabLoop e ev x y m l = dabLoop e ev x y n l := by
  induction n with
  | zero =>
    intro m l _ h
    unfold dabLoop at h
    split_ifs at h with hc
    · exact absurd rfl h
    · cases m <;> simp only [dabLoop, if_neg hc]
  | succ n ih =>
    intro m l hm h
    obtain ⟨m, rfl⟩ := Nat.exists_eq_add_of_lt (Nat.lt_of_succ_le hm)
    rw [show n + m + 1 = (n + m) + 1 from rfl]
    unfold dabLoop at h ⊢
    split_ifs with hc
    · rw [if_pos hc] at h
      cases hd : dabStep e ev x y l with
      | error f => rfl
      | ok l1 =>
        rw [hd] at h
        exact ih (n + m) l1 (by omega) h
    · rfl

end

end Verif.Engine
