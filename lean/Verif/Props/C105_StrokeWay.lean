import Verif.Props.C104_Pen
import Verif.Props.C74_Stroke

/-!
# C105: the stroke input measures the way of the pen, and starts again after the hold time
-/

namespace Verif.Engine
open Verif.Mask Verif.Color Verif.Spectral Verif.Map

section
variable {K R σ : Type} [Field K] [LinearOrder K] [IsStrictOrderedRing K] [FloorRing K]

/-! ## Specification -/

/-- The distance that takes the stroke input from 0 to 1, for the stroke duration `D`. -/
def inputDistance (e : Env K R σ) (s : Load.Brush K) (D : K) : K := e.exp (s sRadiusLogarithmic).base / e.exp (-D)

/-- The stroke input after the way `w`, in units of that distance, for the hold time `H`: up to one, where it stays or, unless the hold
time is infinite, waits for the hold time and starts again. -/
def strokeAfter (H w : K) : K := if 99 / 10 < H then min w 1 else min (modArith w (1 + max H 0)) 1

/-- The length of the way from `(x, y)` through the places. -/
def travelled (e : Env K R σ) : K → K → List (Reading K) → K
  | _, _, [] => 0
  | x, y, B :: Bs => hypot e (B.x - x) (B.y - y) + travelled e B.x B.y Bs

/-- The stroke duration and the hold time do not depend on the inputs, the threshold is not negative, and there is no slow tracking. -/
structure StrokeSettings (s : Load.Brush K) (D H : K) : Prop where
  duration : ∀ i, calculate (s sStrokeDurationLogarithmic) i = D
  hold : ∀ i, calculate (s sStrokeHoldtime) i = H
  threshold : 0 ≤ (s sStrokeThreshold).base
  slow : (s sSlowTracking).base ≤ 1 / 1000

/-- The state behind the input after the way `w`. With an infinite hold time it need not be the way beyond 1. -/
def Measures (H w s : K) : Prop :=
  if 99 / 10 < H then (s = w ∧ 0 ≤ w) ∨ (1 ≤ s ∧ 1 ≤ w) else s = modArith w (1 + max H 0)

/-- In the middle of a stroke that has come `w` so far. -/
structure HasCome (s : Load.Brush K) (H w : K) (b : Brush K R) : Prop where
  midst : Midst s b
  started : b.st.strokeStarted ≠ 0
  pressed : endPressure s < b.st.pressure
  stroke : Measures H w b.st.stroke

/-- The pen reports `B` in the middle of a stroke. -/
structure PressedPen (e : Env K R σ) (s : Load.Brush K) (m : Motion K) (B : Reading K) : Prop where
  pen : ReportsPen e m B
  time : m.dtime ≤ 5
  pressed : endPressure s < B.pressure

/-- A dab at the part `p.2` of the way from `A` to `B` that reads the stroke input at the part `p.1`; the way begins at `w` and has the
length `l`. -/
def DabMeasures (e : Env K R σ) (s : Load.Brush K) (H w l : K) (A B : Reading K) (zoom rot : K) (p : K × K) (a : Dab.Args K) : Prop :=
  ∃ i, PenInputs e s A B zoom rot p.2 i ∧ i iStroke = strokeAfter H (w + p.1 * l) ∧ DabShape e s i a ∧
    (OnTheSpot s → a.x = part p.2 A.x B.x ∧ a.y = part p.2 A.y B.y)

/-- The dabs read the stroke input one after the other, each at a part of the way between the dab before it and itself. -/
def DabsMeasure (e : Env K R σ) (s : Load.Brush K) (H w l : K) (A B : Reading K) (zoom rot : K) (dabs : List (Dab.Args K)) : Prop :=
  ∃ ps : List (K × K), List.Forall₂ (DabMeasures e s H w l A B zoom rot) ps dabs ∧ ps.Pairwise (fun p q => p.2 ≤ q.1) ∧
    ∀ p ∈ ps, 0 ≤ p.1 ∧ p.1 ≤ p.2 ∧ p.2 ≤ 1

/-! ## Proof -/

theorem modArith_unique {a N r : K} (h0 : 0 ≤ r) (h1 : r < N) (h : Congruent N r a) : modArith a N = r := by
  have hN : 0 < N := lt_of_le_of_lt h0 h1
  obtain ⟨k1, k2, n, hn⟩ := modArith_spec a N hN
  obtain ⟨j, hj⟩ := h
  generalize modArith a N = s at *
  have e1 : s - r = ((n - j : ℤ) : K) * N := by rw [hn, hj]; push_cast; ring
  have c1 : ((n - j : ℤ) : K) < 1 := by
    by_contra q
    have := mul_le_mul_of_nonneg_right (not_lt.mp q) hN.le
    linarith
  have c2 : (-1 : K) < ((n - j : ℤ) : K) := by
    by_contra q
    have := mul_le_mul_of_nonneg_right (not_lt.mp q) hN.le
    linarith
  have z : n - j = 0 := by
    have q1 : n - j < 1 := by exact_mod_cast c1
    have q2 : -1 < n - j := by exact_mod_cast c2
    omega
  rw [z] at e1
  push_cast at e1
  linarith

theorem Measures.reads {H w s : K} (h : Measures H w s) : min s 1 = strokeAfter H w := by
  unfold Measures at h
  unfold strokeAfter
  split_ifs at h ⊢ with q
  · rcases h with ⟨h, -⟩ | ⟨h1, h2⟩
    · rw [h]
    · rw [min_eq_right h1, min_eq_right h2]
  · rw [h]

theorem Measures.step {e : Env K R σ} {H w s g nd : K} (h : Measures H w s) (hg : 0 ≤ g) {v : Nat → K} (hH : v sStrokeHoldtime = H)
    (hn : nd * e.exp (-v sStrokeDurationLogarithmic) = g) : Measures H (w + g) (strokeLength e v s nd) := by
  unfold strokeLength
  dsimp only
  rw [hn, hH]
  have mx : ∀ a : K, 0 ≤ a → maxC 0 a = a := by
    intro a ha
    unfold maxC
    rcases eq_or_lt_of_le ha with q | q
    · rw [← q]; simp
    · rw [if_neg (not_lt.mpr q.le)]
  have mH : maxC 0 H = max H 0 := by
    unfold maxC
    split_ifs with q
    · rw [max_eq_right q.le]
    · rw [max_eq_left (not_lt.mp q)]
  rw [mH]
  unfold Measures at h ⊢
  by_cases q : 99 / 10 < H
  · rw [if_pos q] at h ⊢
    have hm : max H 0 = H := max_eq_left (by linarith)
    rw [hm]
    have s0 : 0 ≤ s := by
      rcases h with ⟨h1, h2⟩ | ⟨h1, -⟩
      · rw [h1]; exact h2
      · linarith
    rw [mx _ (add_nonneg s0 hg)]
    by_cases c : s + g ≥ 1 + H
    · rw [if_pos ⟨c, by linarith⟩]
      refine .inr ⟨le_refl _, ?_⟩
      rcases h with ⟨h1, h2⟩ | ⟨-, h2⟩
      · rw [← h1]; linarith
      · linarith
    · rw [if_neg (fun w => c w.1), if_neg c]
      rcases h with ⟨h1, h2⟩ | ⟨h1, h2⟩
      · exact .inl ⟨by rw [h1], add_nonneg h2 hg⟩
      · exact .inr ⟨by linarith, by linarith⟩
  · rw [if_neg q] at h ⊢
    have hW : max H 0 ≤ 99 / 10 := max_le (not_lt.mp q) (by norm_num)
    have W0 : (0 : K) < 1 + max H 0 := by have := le_max_right H 0; linarith
    obtain ⟨k1, k2, n, k3⟩ := modArith_spec w (1 + max H 0) W0
    rw [← h] at k1 k2 k3
    rw [mx _ (add_nonneg k1 hg), if_neg (fun c => not_lt.mpr hW (by linarith [c.2]))]
    split_ifs with c
    · unfold fmod
      rw [if_pos (add_nonneg k1 hg)]
      obtain ⟨j1, j2, j, j3⟩ := modArith_spec (s + g) (1 + max H 0) W0
      refine (modArith_unique j1 j2 ⟨n + j, ?_⟩).symm
      rw [j3, k3]
      push_cast
      ring
    · exact (modArith_unique (add_nonneg k1 hg) (not_le.mp c) ⟨n, by rw [k3]; ring⟩).symm

/-- What holds between the dabs. -/
def MidStroke (e : Env K R σ) (s0 : Load.Brush K) (H w len : K) (st : State K) (ev : Event K) (X Y : K) (old : List (Dab.Args K))
    (b : Brush K R) (l : List (Dab.Args K)) : Prop :=
  Unaltered s0 b ∧ ∃ t, 0 ≤ t ∧ t ≤ 1 ∧ OnWay st.reading (ev.pulls X Y) t b.st ∧ b.st.strokeStarted ≠ 0 ∧
    Measures H (w + t * len) b.st.stroke ∧ ∃ new ps, l = old ++ new ∧
    List.Forall₂ (DabMeasures e s0 H w len st.reading (ev.pulls X Y) ev.viewzoom ev.viewrotation) ps new ∧
    ps.Pairwise (fun p q => p.2 ≤ q.1) ∧ ∀ p ∈ ps, 0 ≤ p.1 ∧ p.1 ≤ p.2 ∧ p.2 ≤ t

/-- The way that a step adds. -/
theorem step_adds {e : Env K R σ} (L : Laws e) {s0 : Load.Brush K} {D H : K} (hS : StrokeSettings s0 D H) {st : State K}
    {ev : Event K} {X Y t : K} (t1 : t ≤ 1) {b b' : Brush K R} (hs : Unaltered s0 b) (hb : OnWay st.reading (ev.pulls X Y) t b.st)
    {d f dt : K} (f0 : 0 ≤ f) (hdt : 0 ≤ dt) (h : update e b (stepTo b.st ev X Y d f dt) = .ok b') {w : K}
    (hw : Measures H w (moveStates e b (stepTo b.st ev X Y d f dt)).stroke) :
    Measures H (w + f * (1 - t) * (hypot e (X - st.x) (Y - st.y) / inputDistance e s0 D)) b'.st.stroke := by
  set s := stepTo b.st ev X Y d f dt with hsdef
  have f2 : b'.st.stroke = strokeLength e b'.vals (moveStates e b s).stroke
      (hypot e (s.dx / stepTime s.dtime / e.exp (b.baseval sRadiusLogarithmic))
        (s.dy / stepTime s.dtime / e.exp (b.baseval sRadiusLogarithmic)) * stepTime s.dtime) := by
    rw [update_eq h]
    rfl
  have hv : ∀ id, b'.vals id = calculate (s0 id) (inputsOf e b (moveStates e b s)).get := by
    intro id
    rw [update_eq h, ← hs.settings]
    rfl
  have dt0 : 0 ≤ s.dtime := mul_nonneg f0 hdt
  rw [f2, normDist_eq L _ _ (stepTime_pos dt0) (L.exp_pos _)]
  have ex : s.dx = f * (1 - t) * (X - st.x) := by
    show f * (X - b.st.x) = _
    rw [show b.st.x = part t st.x X from hb.x]; unfold part; ring
  have ey : s.dy = f * (1 - t) * (Y - st.y) := by
    show f * (Y - b.st.y) = _
    rw [show b.st.y = part t st.y Y from hb.y]; unfold part; ring
  have c0 : 0 ≤ f * (1 - t) := mul_nonneg f0 (by linarith)
  rw [ex, ey, hypot_scale L c0]
  have i0 : 0 < inputDistance e s0 D := div_pos (L.exp_pos _) (L.exp_pos _)
  refine hw.step (mul_nonneg c0 (div_nonneg (hypot_nonneg L _ _) i0.le)) (by rw [hv]; exact hS.hold _) ?_
  rw [hv, hS.duration]
  unfold inputDistance
  rw [show b.baseval sRadiusLogarithmic = (s0 sRadiusLogarithmic).base by show (b.settings _).base = _; rw [hs.settings]]
  have := (L.exp_pos (s0 sRadiusLogarithmic).base).ne'
  have := (L.exp_pos (-D)).ne'
  field_simp

/-- A step within a stroke. -/
theorem update_measures {e : Env K R σ} (L : Laws e) {s0 : Load.Brush K} {D H w : K} (hS : StrokeSettings s0 D H) {st : State K}
    {ev : Event K} {X Y t : K} (t1 : t ≤ 1)
    {b b' : Brush K R} (hs : Unaltered s0 b) (hb : OnWay st.reading (ev.pulls X Y) t b.st) (hst : b.st.strokeStarted ≠ 0)
    (hw : Measures H (w + t * (hypot e (X - st.x) (Y - st.y) / inputDistance e s0 D)) b.st.stroke) {d f dt : K}
    (f0 : 0 ≤ f) (hdt : 0 ≤ dt) (h : update e b (stepTo b.st ev X Y d f dt) = .ok b')
    (pr : endPressure s0 < (moveStates e b (stepTo b.st ev X Y d f dt)).pressure) :
    b'.st.strokeStarted ≠ 0 ∧
      Measures H (w + (t + f * (1 - t)) * (hypot e (X - st.x) (Y - st.y) / inputDistance e s0 D)) b'.st.stroke ∧
      (inputsOf e b (moveStates e b (stepTo b.st ev X Y d f dt))).get iStroke =
        strokeAfter H (w + t * (hypot e (X - st.x) (Y - st.y) / inputDistance e s0 D)) := by
  set s := stepTo b.st ev X Y d f dt with hsdef
  have thr : b.baseval sStrokeThreshold = (s0 sStrokeThreshold).base := by
    show (b.settings _).base = _
    rw [hs.settings]
  have hns : ¬ (b.st.strokeStarted = 0 ∧ (moveStates e b s).pressure > b.baseval sStrokeThreshold + 1 / 10000) := fun q => hst q.1
  have hne : ¬ (b.st.strokeStarted ≠ 0 ∧ (moveStates e b s).pressure ≤ b.baseval sStrokeThreshold * (9 / 10) + 1 / 10000) := by
    intro q
    rw [thr] at q
    exact not_lt.mpr q.2 pr
  have m1 : (moveStates e b s).strokeStarted = b.st.strokeStarted :=
    (if_neg hns).trans (if_neg hne)
  have m2 : (moveStates e b s).stroke = b.st.stroke := if_neg hns
  refine ⟨?_, ?_, ?_⟩
  · rw [update_eq h]
    show (moveStates e b s).strokeStarted ≠ 0
    rw [m1]; exact hst
  · have z : w + (t + f * (1 - t)) * (hypot e (X - st.x) (Y - st.y) / inputDistance e s0 D) =
        w + t * (hypot e (X - st.x) (Y - st.y) / inputDistance e s0 D) +
          f * (1 - t) * (hypot e (X - st.x) (Y - st.y) / inputDistance e s0 D) := by ring
    rw [z]
    exact step_adds L hS t1 hs hb f0 hdt h (by rw [m2]; exact hw)
  · show minC (moveStates e b s).stroke 1 = _
    rw [m2, minC_eq]
    exact hw.reads

/-- The step by which a stroke begins. -/
theorem update_begins {e : Env K R σ} (L : Laws e) {s0 : Load.Brush K} {D H : K} (hS : StrokeSettings s0 D H) {st : State K}
    {ev : Event K} {X Y t : K} (t1 : t ≤ 1)
    {b b' : Brush K R} (hs : Unaltered s0 b) (hb : OnWay st.reading (ev.pulls X Y) t b.st) (hst : b.st.strokeStarted = 0) {d f dt : K}
    (f0 : 0 ≤ f) (hdt : 0 ≤ dt) (h : update e b (stepTo b.st ev X Y d f dt) = .ok b') :
    ((moveStates e b (stepTo b.st ev X Y d f dt)).pressure ≤ (s0 sStrokeThreshold).base + 1 / 10000 ∧ b'.st.strokeStarted = 0) ∨
    ((s0 sStrokeThreshold).base + 1 / 10000 < (moveStates e b (stepTo b.st ev X Y d f dt)).pressure ∧ b'.st.strokeStarted ≠ 0 ∧
      Measures H (f * (1 - t) * (hypot e (X - st.x) (Y - st.y) / inputDistance e s0 D)) b'.st.stroke) := by
  set s := stepTo b.st ev X Y d f dt with hsdef
  have thr : b.baseval sStrokeThreshold = (s0 sStrokeThreshold).base := by
    show (b.settings _).base = _
    rw [hs.settings]
  have es : b'.st.strokeStarted = (moveStates e b s).strokeStarted := by rw [update_eq h]; rfl
  rw [es]
  by_cases q : (s0 sStrokeThreshold).base + 1 / 10000 < (moveStates e b s).pressure
  · have hc : b.st.strokeStarted = 0 ∧ (moveStates e b s).pressure > b.baseval sStrokeThreshold + 1 / 10000 := ⟨hst, by rw [thr]; exact q⟩
    have m1 : (moveStates e b s).strokeStarted = 1 := if_pos hc
    have m2 : (moveStates e b s).stroke = 0 := if_pos hc
    refine .inr ⟨q, by rw [m1]; exact one_ne_zero, ?_⟩
    have k := step_adds (w := 0) (H := H) L hS t1 hs hb f0 hdt h (by
      rw [← hsdef, m2]
      unfold Measures
      split_ifs
      · exact .inl ⟨rfl, le_refl _⟩
      · refine (modArith_unique (le_refl _) ?_ ⟨0, by simp⟩).symm
        have := le_max_right H 0
        linarith)
    rw [zero_add] at k
    exact k
  · refine .inl ⟨not_lt.mp q, ?_⟩
    have hc : ¬ (b.st.strokeStarted = 0 ∧ (moveStates e b s).pressure > b.baseval sStrokeThreshold + 1 / 10000) := by
      rw [thr]
      exact fun c => q c.2
    have m1 : (moveStates e b s).strokeStarted = _ := (if_neg hc).trans (if_neg (fun c => c.1 hst))
    rw [m1]
    exact hst

theorem update_midStroke {e : Env K R σ} (L : Laws e) {s0 : Load.Brush K} {D H w : K} (hS : StrokeSettings s0 D H) {st : State K}
    {ev : Event K} {X Y t : K} (t0 : 0 ≤ t) (t1 : t ≤ 1) (hp : endPressure s0 < st.pressure) (hq : endPressure s0 < ev.pressure)
    {b b' : Brush K R} (hs : Unaltered s0 b) (hb : OnWay st.reading (ev.pulls X Y) t b.st) (hst : b.st.strokeStarted ≠ 0)
    (hw : Measures H (w + t * (hypot e (X - st.x) (Y - st.y) / inputDistance e s0 D)) b.st.stroke) {d f dt : K}
    (f0 : 0 ≤ f) (f1 : f ≤ 1) (hdt : 0 ≤ dt) (h : update e b (stepTo b.st ev X Y d f dt) = .ok b') :
    b'.st.strokeStarted ≠ 0 ∧
      Measures H (w + (t + f * (1 - t)) * (hypot e (X - st.x) (Y - st.y) / inputDistance e s0 D)) b'.st.stroke ∧
      (inputsOf e b (moveStates e b (stepTo b.st ev X Y d f dt))).get iStroke =
        strokeAfter H (w + t * (hypot e (X - st.x) (Y - st.y) / inputDistance e s0 D)) := by
  have hE : 0 ≤ endPressure s0 := by
    unfold endPressure
    have := hS.threshold
    have : (0 : K) < 1 / 10000 := by norm_num
    linarith
  have k := moveStates_onWay (e := e) t0 t1 (hE.trans hp.le) (hE.trans hq.le) hb (d := d) (dt := dt) f0 f1
  have u0 : 0 ≤ t + f * (1 - t) := add_nonneg t0 (mul_nonneg f0 (by linarith))
  have u1 : t + f * (1 - t) ≤ 1 := by nlinarith
  have pr : endPressure s0 < (moveStates e b (stepTo b.st ev X Y d f dt)).pressure := by
    rw [k.pressure]
    show endPressure s0 < part (t + f * (1 - t)) st.pressure ev.pressure
    generalize t + f * (1 - t) = u at *
    unfold part
    rcases eq_or_lt_of_le u1 with q | q
    · rw [q]; linarith
    · have := mul_lt_mul_of_pos_left hp (sub_pos.mpr q)
      have := mul_le_mul_of_nonneg_left hq.le u0
      linarith
  exact update_measures L hS t1 hs hb hst hw f0 hdt h pr

/-- One turn of the dab loop. -/
theorem dabStep_midStroke {e : Env K R σ} (L : Laws e) {s0 : Load.Brush K} {D H w : K} (hS : StrokeSettings s0 D H) {st : State K}
    {ev : Event K} {X Y : K} {old : List (Dab.Args K)} (hp : endPressure s0 < st.pressure) (hq : endPressure s0 < ev.pressure)
    {l l' : Loop K R (σ × List (Dab.Args K))} (hl : LoopRange l)
    (hi : MidStroke e s0 H w (hypot e (X - st.x) (Y - st.y) / inputDistance e s0 D) st ev X Y old l.b l.surf.2)
    (hc : l.moved + l.todo ≥ 1) (h : dabStep (recordDabs e) ev X Y l = .ok l') :
    LoopRange l' ∧ MidStroke e s0 H w (hypot e (X - st.x) (Y - st.y) / inputDistance e s0 D) st ev X Y old l'.b l'.surf.2 := by
  have hE : 0 ≤ endPressure s0 := by
    unfold endPressure
    have := hS.threshold
    have : (0 : K) < 1 / 10000 := by norm_num
    linarith
  have L' : Laws (recordDabs e) := ⟨L.exp_pos, L.sqrt_nonneg, L.sqrt_sq, L.trig, L.atan2_range, L.next_range, L.pow_range⟩
  obtain ⟨f0, f1⟩ := fraction_ok hl hc
  obtain ⟨hz, b1, p, b2, hu, hd, h2, e1⟩ := dabStep_eq h
  obtain ⟨hsame, t, t0, t1, hb, hst, hw, new, ps, hnew, hall, hps, hle⟩ := hi
  have tm := hl.time0
  obtain ⟨k1, k2, i, ki, k3, k4, k5, k6, k7⟩ := update_onWay t0 t1 (hE.trans hp.le) (hE.trans hq.le) hsame hb f0 f1 hu
  obtain ⟨n1, n2, n3⟩ := update_midStroke (e := recordDabs e) L' hS t0 t1 hp hq hsame hb hst hw f0 f1 tm hu
  rw [← ki] at n3
  have m0 := hl.moved0
  have m1 := hl.moved1
  clear hu hc ki
  generalize (if l.moved > 0 then 1 - l.moved else 1) / l.todo = f at *
  obtain ⟨u, hu⟩ : ∃ u, u = t + f * (1 - t) := ⟨_, rfl⟩
  rw [← hu] at k2 k3 n2
  have u0 : t ≤ u := by have := mul_nonneg f0 (sub_nonneg.mpr t1); linarith
  have u1 : u ≤ 1 := by rw [hu]; nlinarith
  have fr := drawDab_frame hd
  have est : p.2.1.settings = b1.settings := fr.settings
  rw [e1]
  refine ⟨⟨?_, ?_, countDabs_nonneg _ _ _ _ _, ?_⟩, ?_⟩
  · simp only
    split_ifs
    · exact le_refl _
    · exact m0
  · simp only
    split_ifs
    · exact zero_lt_one
    · exact m1
  · simp only
    have := mul_nonneg (sub_nonneg.mpr f1) tm
    linarith
  · simp only
    rw [countDabs_st, h2]
    refine ⟨⟨est.trans k1.settings, by show (p.2.1.settings _).base = 0; rw [est]; exact k1.still.noise,
      by show p.2.1.skip ≤ _; rw [fr]; exact k1.still.skip, by show p.2.1.resetRequested = _; rw [fr]; exact k1.still.reset⟩,
      u, t0.trans u0, u1, ?_, ?_, ?_, ?_⟩
    · refine k2.of_eq ?_ ?_ ?_ ?_ ?_ ?_ ?_ ?_ <;> (simp only; rw [fr])
    · simp only; rw [fr]; exact n1
    · simp only; rw [fr]; exact n2
    · rcases drawDab_new (e := e) k4 k5 k6 hd with q | ⟨a, q, q1, -⟩
      · exact ⟨new, ps, by rw [q]; exact hnew, hall, hps, fun t' ht' => ⟨(hle t' ht').1, (hle t' ht').2.1, (hle t' ht').2.2.trans u0⟩⟩
      · refine ⟨new ++ [a], ps ++ [(t, u)], by rw [q, hnew, List.append_assoc], ?_, ?_, ?_⟩
        · refine List.rel_append hall (.cons ⟨i, ⟨k3.pressure, k3.declination, k3.declinationX, k3.declinationY, k3.ascension, k3.rotation,
            k3.attack, k3.radius, k3.zoom⟩, n3, by rw [← k1.settings]; exact q1, fun ho => ?_⟩ .nil)
          rcases drawDab_spot (e := e) k4 (by rw [k1.settings]; exact ho) (k7 ho).1 (k7 ho).2 hd with g | ⟨a', g, g1, g2⟩
          · rw [q] at g
            have := congrArg List.length g
            simp at this
          · rw [q] at g
            have ea := List.singleton_inj.mp (List.append_cancel_left g)
            rw [ea, g1, g2]
            exact ⟨k2.x, k2.y⟩
        · refine List.pairwise_append.mpr ⟨hps, List.pairwise_singleton _ _, fun a ha b hb => ?_⟩
          rw [List.mem_singleton.mp hb]
          exact (hle a ha).2.2
        · intro t' ht'
          rcases List.mem_append.mp ht' with g | g
          · exact ⟨(hle t' g).1, (hle t' g).2.1, (hle t' g).2.2.trans u0⟩
          · rw [List.mem_singleton.mp g]; exact ⟨t0, u0, le_refl _⟩

theorem moveTo_midStroke {e : Env K R σ} (L : Laws e) {s0 : Load.Brush K} {D H w : K} (hS : StrokeSettings s0 D H) {fuel : Nat}
    {b : Brush K R} (hb : HasCome s0 H w b) {ev : Event K} (hq : endPressure s0 < ev.pressure) {surf : σ × List (Dab.Args K)}
    {X Y dt : K} (hdt : 0 ≤ dt) {r : Bool × Brush K R × (σ × List (Dab.Args K))}
    (h : moveTo (recordDabs e) fuel b surf ev X Y dt = .ok r) :
    r.2.1.st.strokeStarted ≠ 0 ∧ Measures H (w + hypot e (X - b.st.x) (Y - b.st.y) / inputDistance e s0 D) r.2.1.st.stroke ∧
      ∃ new, r.2.2.2 = surf.2 ++ new ∧ DabsMeasure e s0 H w (hypot e (X - b.st.x) (Y - b.st.y) / inputDistance e s0 D) b.st.reading
        (ev.pulls X Y) ev.viewzoom ev.viewrotation new := by
  have hs := hb.midst.still
  have hp := hb.pressed
  have L' : Laws (recordDabs e) := ⟨L.exp_pos, L.sqrt_nonneg, L.sqrt_sq, L.trig, L.atan2_range, L.next_range, L.pow_range⟩
  obtain ⟨l, b1, hl, hu', -, h2, h3⟩ := moveTo_eq h
  have k := (dabLoop_induct
    (fun l : Loop K R (σ × List (Dab.Args K)) => LoopRange l ∧ MidStroke e s0 H w
      (hypot e (X - b.st.x) (Y - b.st.y) / inputDistance e s0 D) b.st ev X Y surf.2 l.b l.surf.2)
    (fun l l' hc hst hi => dabStep_midStroke L hS hp hq hi.1 hi.2 hc hst) _ _ _ hl
    ⟨⟨hb.midst.placid.pending.1, hb.midst.placid.pending.2, countDabs_nonneg _ b X Y dt, hdt⟩,
      ⟨by simp only; rw [countDabs_st]; exact hb.midst.settings, by
        simp only; rw [countDabs_st]; exact ⟨hs.noise, hs.skip, hs.reset⟩⟩, 0, le_refl _, zero_le_one, by
      simp only; rw [countDabs_st]; exact (onWay_start b.st ev X Y).of_eq rfl rfl rfl rfl rfl rfl rfl rfl, by
      simp only; rw [countDabs_st]; exact hb.started, by
      simp only; rw [countDabs_st, zero_mul, add_zero]; exact hb.stroke,
      [], [], (List.append_nil _).symm, .nil, .nil, by simp⟩).1
  obtain ⟨k0, hsame, t, t0, t1, hb', hst, hw, new, ps, hnew, hall, hps, hle⟩ := k
  obtain ⟨k1, k2, -⟩ := update_midStroke (e := recordDabs e) L' hS t0 t1 hp hq hsame hb' hst hw zero_le_one (le_refl _) k0.time0 hu'
  rw [h2, h3, splitStroke_eq]
  rw [show t + 1 * (1 - t) = 1 by ring, one_mul] at k2
  exact ⟨k1, k2, new, hnew, ps, hall, hps, fun t' ht' => ⟨(hle t' ht').1, (hle t' ht').2.1, (hle t' ht').2.2.trans t1⟩⟩

/-- A call in the middle of a stroke. -/
theorem strokeTo_measures {e : Env K R σ} (L : Laws e) {s0 : Load.Brush K} {D H w : K} (hS : StrokeSettings s0 D H) {fuel : Nat}
    {b : Brush K R} (hb : HasCome s0 H w b) {m : Motion K} {B : Reading K} (hm : PressedPen e s0 m B)
    {surf : σ × List (Dab.Args K)} {r : Bool × Brush K R × (σ × List (Dab.Args K))}
    (h : strokeTo (recordDabs e) fuel b surf m = .ok r) :
    HasCome s0 H (w + hypot e (B.x - b.st.x) (B.y - b.st.y) / inputDistance e s0 D) r.2.1 ∧ SameReading r.2.1.st.reading B ∧
      ∃ new, r.2.2.2 = surf.2 ++ new ∧ DabsMeasure e s0 H w (hypot e (B.x - b.st.x) (B.y - b.st.y) / inputDistance e s0 D)
        b.st.reading B m.viewzoom m.viewrotation new := by
  have hE : 0 ≤ endPressure s0 := by
    unfold endPressure
    have := hS.threshold
    have : (0 : K) < 1 / 10000 := by norm_num
    linarith
  obtain ⟨k1, k2, -⟩ := strokeTo_reads hb.midst hS.slow hm.pen hm.time h
  have pr : endPressure s0 < r.2.1.st.pressure := by
    rw [show r.2.1.st.pressure = B.pressure from k2.pressure]
    exact hm.pressed
  obtain ⟨ev, he, ⟨-, h⟩ | ⟨w', -⟩⟩ := strokeTo_cases h
  · obtain ⟨e1, e2, e3, e4⟩ := sanitise_reports hm.pen.recorded he
    have h5 : ev.dtime ≤ 5 := by
      rw [e4]
      split_ifs
      · norm_num
      · exact hm.time
    have hx : ev.x = B.x := by rw [← e1]; rfl
    have hy : ev.y = B.y := by rw [← e1]; rfl
    have hq : endPressure s0 < ev.pressure := by rw [show ev.pressure = B.pressure by rw [← e1]; rfl]; exact hm.pressed
    have hs := hb.midst.still
    have sk : skipStage (recordDabs e) b ev.x ev.y ev.dtime = (b, ev.dtime, false) := steady_skip hs _ _ _
    have cu := cursor_tracks (e := recordDabs e) (b := b) (T := (b.settings sSlowTracking).base) ⟨rfl, hs.noise, hs.skip⟩ ev.x ev.y ev.dtime
    rcases strokeEvent_cases h with ⟨h1, -⟩ | ⟨-, h1, -⟩ | ⟨-, -, h⟩
    · rw [sk] at h1; cases h1
    · rw [sk, hs.reset] at h1
      rcases h1 with q | q
      · exact absurd q (not_lt.mpr h5)
      · cases q
    · simp only [sk, cu] at h
      rw [followed_at_once _ (by rw [hb.midst.settings]; exact hS.slow), followed_at_once _ (by rw [hb.midst.settings]; exact hS.slow)] at h
      obtain ⟨j1, j2, new, j3, j4⟩ := moveTo_midStroke L hS hb hq (sanitise_pressure he).2.le h
      rw [hx, hy] at j2
      rw [e1, e2, e3, hx, hy] at j4
      exact ⟨⟨k1, j1, pr, j2⟩, k2, new, j3, j4⟩
  · have : b.st.pressure = 0 := w'.2.2
    have q := hb.pressed
    rw [this] at q
    exact absurd q (not_lt.mpr hE)

theorem strokes_measure {e : Env K R σ} (L : Laws e) {s0 : Load.Brush K} {D H : K} (hS : StrokeSettings s0 D H) {fuel : Nat}
    {ms : List (Motion K)} {Bs : List (Reading K)} (hm : List.Forall₂ (PressedPen e s0) ms Bs) : ∀ {w : K} {b : Brush K R},
    HasCome s0 H w b → ∀ {surf : σ × List (Dab.Args K)} {r : Brush K R × (σ × List (Dab.Args K))},
    strokes (recordDabs e) fuel b surf ms = .ok r →
    HasCome s0 H (w + travelled e b.st.x b.st.y Bs / inputDistance e s0 D) r.1 := by
  induction hm with
  | nil =>
    intro w b hb surf r h
    rw [← Except.ok.inj h]
    show HasCome s0 H (w + 0 / _) b
    rw [zero_div, add_zero]
    exact hb
  | cons h1 _ ih =>
    intro w b hb surf r h
    unfold strokes at h
    obtain ⟨r1, h2, h⟩ := bind_ok h
    obtain ⟨k1, k2, -⟩ := strokeTo_measures L hS hb h1 h2
    have k := ih k1 h
    rw [show r1.2.1.st.x = _ from k2.x, show r1.2.1.st.y = _ from k2.y] at k
    unfold travelled
    rw [add_div, ← add_assoc]
    exact k

/-- What holds between the dabs while a stroke begins: it has not begun, or it began at an earlier part of the way. -/
def MidBegin (e : Env K R σ) (s0 : Load.Brush K) (H len : K) (st : State K) (ev : Event K) (X Y : K) (b : Brush K R) : Prop :=
  Unaltered s0 b ∧ ∃ t, 0 ≤ t ∧ t ≤ 1 ∧ OnWay st.reading (ev.pulls X Y) t b.st ∧ (b.st.strokeStarted = 0 ∨
    (b.st.strokeStarted ≠ 0 ∧ (s0 sStrokeThreshold).base + 1 / 10000 < b.st.pressure ∧
      ∃ u, 0 ≤ u ∧ u ≤ t ∧ Measures H (-(u * len) + t * len) b.st.stroke))

theorem update_midBegin {e : Env K R σ} (L : Laws e) {s0 : Load.Brush K} {D H : K} (hS : StrokeSettings s0 D H) {st : State K}
    {ev : Event K} {X Y : K} (hp : 0 ≤ st.pressure) (hq : (s0 sStrokeThreshold).base + 1 / 10000 < ev.pressure)
    (hq0 : 0 ≤ ev.pressure) {b b' : Brush K R}
    (hb : MidBegin e s0 H (hypot e (X - st.x) (Y - st.y) / inputDistance e s0 D) st ev X Y b) {d f dt : K}
    (f0 : 0 ≤ f) (f1 : f ≤ 1) (hdt : 0 ≤ dt) (h : update e b (stepTo b.st ev X Y d f dt) = .ok b') :
    MidBegin e s0 H (hypot e (X - st.x) (Y - st.y) / inputDistance e s0 D) st ev X Y b' ∧
      (f = 1 → b'.st.strokeStarted ≠ 0 ∧ ∃ t, 0 ≤ t ∧ t ≤ 1 ∧
        Measures H (t * (hypot e (X - st.x) (Y - st.y) / inputDistance e s0 D)) b'.st.stroke) := by
  obtain ⟨hs, t, t0, t1, hw, hc⟩ := hb
  obtain ⟨k1, k2, -⟩ := update_onWay t0 t1 hp hq0 hs hw f0 f1 h
  have k := moveStates_onWay (e := e) t0 t1 hp hq0 hw (d := d) (dt := dt) f0 f1
  have hthr := hS.threshold
  have hE : endPressure s0 ≤ (s0 sStrokeThreshold).base + 1 / 10000 := by unfold endPressure; linarith
  have ep : b'.st.pressure = (moveStates e b (stepTo b.st ev X Y d f dt)).pressure := by rw [update_eq h]; rfl
  have epart : (moveStates e b (stepTo b.st ev X Y d f dt)).pressure = b.st.pressure + f * (ev.pressure - b.st.pressure) := by
    rw [k.pressure, hw.pressure]
    exact (part_step t f st.pressure ev.pressure).symm
  have u0 : t ≤ t + f * (1 - t) := by have := mul_nonneg f0 (sub_nonneg.mpr t1); linarith
  have u1 : t + f * (1 - t) ≤ 1 := by nlinarith
  have fl : f = 1 → t + f * (1 - t) = 1 := by intro q; rw [q]; ring
  rcases hc with hc | ⟨hc, hc2, u, v0, v1, hM⟩
  · rcases update_begins (H := H) L hS t1 hs hw hc f0 hdt h with ⟨q1, q2⟩ | ⟨q1, q2, q3⟩
    · refine ⟨⟨k1, _, t0.trans u0, u1, k2, .inl q2⟩, fun hf => ?_⟩
      rw [epart, hf] at q1
      exact absurd hq (not_lt.mpr (by linarith))
    · refine ⟨⟨k1, _, t0.trans u0, u1, k2, .inr ⟨q2, by rw [ep]; exact q1, t, t0, u0, ?_⟩⟩, fun hf => ⟨q2, 1 - t, by linarith, by linarith, ?_⟩⟩
      · convert q3 using 1
        ring
      · rw [hf, one_mul] at q3
        exact q3
  · have pr : (s0 sStrokeThreshold).base + 1 / 10000 < (moveStates e b (stepTo b.st ev X Y d f dt)).pressure := by
      rw [epart]
      rcases eq_or_lt_of_le f1 with q | q
      · rw [q]; linarith
      · have := mul_lt_mul_of_pos_left hc2 (sub_pos.mpr q)
        have := mul_le_mul_of_nonneg_left hq.le f0
        linarith
    obtain ⟨q1, q2, -⟩ := update_measures L hS t1 hs hw hc hM f0 hdt h (lt_of_le_of_lt hE pr)
    refine ⟨⟨k1, _, t0.trans u0, u1, k2, .inr ⟨q1, by rw [ep]; exact pr, u, v0, v1.trans u0, q2⟩⟩,
      fun hf => ⟨q1, 1 - u, by linarith, by linarith, ?_⟩⟩
    rw [fl hf] at q2
    convert q2 using 1
    ring

theorem moveTo_begins {e : Env K R σ} (L : Laws e) {s0 : Load.Brush K} {D H : K} (hS : StrokeSettings s0 D H) {fuel : Nat}
    {b : Brush K R} (hb : Midst s0 b) (h0 : b.st.strokeStarted = 0) {ev : Event K}
    (hq : (s0 sStrokeThreshold).base + 1 / 10000 < ev.pressure) (hq0 : 0 ≤ ev.pressure) {surf : σ × List (Dab.Args K)}
    {X Y dt : K} (hdt : 0 ≤ dt) {r : Bool × Brush K R × (σ × List (Dab.Args K))}
    (h : moveTo (recordDabs e) fuel b surf ev X Y dt = .ok r) :
    ∃ t, 0 ≤ t ∧ t ≤ 1 ∧ r.2.1.st.strokeStarted ≠ 0 ∧
      Measures H (t * (hypot e (X - b.st.x) (Y - b.st.y) / inputDistance e s0 D)) r.2.1.st.stroke := by
  have hs := hb.still
  have L' : Laws (recordDabs e) := ⟨L.exp_pos, L.sqrt_nonneg, L.sqrt_sq, L.trig, L.atan2_range, L.next_range, L.pow_range⟩
  obtain ⟨l, b1, hl, hu', -, h2, h3⟩ := moveTo_eq h
  have k := (dabLoop_induct
    (fun l : Loop K R (σ × List (Dab.Args K)) => LoopRange l ∧ MidBegin (recordDabs e) s0 H
      (hypot (recordDabs e) (X - b.st.x) (Y - b.st.y) / inputDistance (recordDabs e) s0 D) b.st ev X Y l.b)
    (fun l l' hc hst hi => by
      obtain ⟨hl, hi⟩ := hi
      obtain ⟨f0, f1⟩ := fraction_ok hl hc
      obtain ⟨hz, b1, p, b2, hu, hd, h2, e1⟩ := dabStep_eq hst
      have tm := hl.time0
      have m0 := hl.moved0
      have m1 := hl.moved1
      obtain ⟨⟨k1, t, k2, k3, k4, k5⟩, -⟩ := update_midBegin (e := recordDabs e) L' hS hb.placid.pressure hq hq0 hi f0 f1 tm hu
      have fr := drawDab_frame hd
      have est : p.2.1.settings = b1.settings := fr.settings
      rw [e1]
      refine ⟨⟨?_, ?_, countDabs_nonneg _ _ _ _ _, ?_⟩, ?_⟩
      · simp only
        split_ifs
        · exact le_refl _
        · exact m0
      · simp only
        split_ifs
        · exact zero_lt_one
        · exact m1
      · simp only
        have := mul_nonneg (sub_nonneg.mpr f1) tm
        linarith
      · simp only
        rw [countDabs_st, h2]
        refine ⟨⟨est.trans k1.settings, by show (p.2.1.settings _).base = 0; rw [est]; exact k1.still.noise,
          by show p.2.1.skip ≤ _; rw [fr]; exact k1.still.skip, by show p.2.1.resetRequested = _; rw [fr]; exact k1.still.reset⟩,
          t, k2, k3, ?_, ?_⟩
        · refine k4.of_eq ?_ ?_ ?_ ?_ ?_ ?_ ?_ ?_ <;> (simp only; rw [fr])
        · simp only
          rw [fr]
          exact k5) _ _ _ hl
    ⟨⟨hb.placid.pending.1, hb.placid.pending.2, countDabs_nonneg _ b X Y dt, hdt⟩,
      ⟨by simp only; rw [countDabs_st]; exact hb.settings, by
        simp only; rw [countDabs_st]; exact ⟨hs.noise, hs.skip, hs.reset⟩⟩, 0, le_refl _, zero_le_one, by
      simp only; rw [countDabs_st]; exact (onWay_start b.st ev X Y).of_eq rfl rfl rfl rfl rfl rfl rfl rfl, by
      simp only; rw [countDabs_st]; exact .inl h0⟩).1
  obtain ⟨k0, hm⟩ := k
  obtain ⟨-, k2⟩ := update_midBegin (e := recordDabs e) L' hS hb.placid.pressure hq hq0 hm zero_le_one (le_refl _) k0.time0 hu'
  obtain ⟨q1, t, q2, q3, q4⟩ := k2 rfl
  rw [h2, splitStroke_eq]
  exact ⟨t, q2, q3, q1, q4⟩

/-! ## C105 -/

/-- **C105**. In the middle of a stroke, after any events: the stroke input is the one for the way so far, in units of the radius times
the stroke duration. -/
theorem stroke_input_measures_the_way {e : Env K R σ} (L : Laws e) {s0 : Load.Brush K} {D H w : K} (hS : StrokeSettings s0 D H)
    {fuel : Nat} {ms : List (Motion K)} {Bs : List (Reading K)} (hm : List.Forall₂ (PressedPen e s0) ms Bs) {b : Brush K R}
    (hb : HasCome s0 H w b) {surf : σ × List (Dab.Args K)} {r : Brush K R × (σ × List (Dab.Args K))}
    (h : strokes (recordDabs e) fuel b surf ms = .ok r) :
    strokeInput r.1 = strokeAfter H (w + travelled e b.st.x b.st.y Bs / inputDistance e s0 D) :=
  (strokes_measure L hS hm hb h).stroke.reads

/-- **C105**. The dabs of one more event read it at a part of the way between the dab before and themselves. -/
theorem dabs_read_the_way {e : Env K R σ} (L : Laws e) {s0 : Load.Brush K} {D H w : K} (hS : StrokeSettings s0 D H)
    {fuel : Nat} {ms : List (Motion K)} {Bs : List (Reading K)} (hm : List.Forall₂ (PressedPen e s0) ms Bs) {m1 m2 : Motion K}
    {A B : Reading K} (h1 : PressedPen e s0 m1 A) (h2 : PressedPen e s0 m2 B) {b : Brush K R} (hb : HasCome s0 H w b)
    {surf : σ × List (Dab.Args K)} {r1 : Brush K R × (σ × List (Dab.Args K))}
    (hs1 : strokes (recordDabs e) fuel b surf (ms ++ [m1]) = .ok r1) {r2 : Bool × Brush K R × (σ × List (Dab.Args K))}
    (hs2 : strokeTo (recordDabs e) fuel r1.1 r1.2 m2 = .ok r2) :
    ∃ new, r2.2.2.2 = r1.2.2 ++ new ∧ DabsMeasure e s0 H (w + travelled e b.st.x b.st.y (Bs ++ [A]) / inputDistance e s0 D)
      (hypot e (B.x - A.x) (B.y - A.y) / inputDistance e s0 D) A B m2.viewzoom m2.viewrotation new := by
  have k := strokes_measure L hS (List.rel_append hm (.cons h1 .nil)) hb hs1
  obtain ⟨b', surf', r', k1, k2, e1⟩ := strokes_then ms hb.midst.placid (.inl hb.midst.reset) hs1
  rw [hb.midst.settings] at k1
  obtain ⟨-, j2, -⟩ := strokeTo_reads k1 hS.slow h1.pen h1.time k2
  rw [← e1] at j2
  obtain ⟨-, -, new, q1, ps, q2, q3, q4⟩ := strokeTo_measures L hS k h2 hs2
  refine ⟨new, q1, ps, q2.imp ?_, q3, q4⟩
  rintro p a ⟨i, g1, g2, g3, g4⟩
  have ex : r1.1.st.x = A.x := j2.x
  have ey : r1.1.st.y = A.y := j2.y
  refine ⟨i, g1.turns j2, ?_, g3, fun ho => ?_⟩
  · rw [g2, ex, ey]
  · have := g4 ho
    rw [show r1.1.st.reading.x = A.x from ex, show r1.1.st.reading.y = A.y from ey] at this
    exact this

/-- **C105**. The event by which a stroke begins: it has come a part of the way of the event. -/
theorem stroke_begins {e : Env K R σ} (L : Laws e) {s0 : Load.Brush K} {D H : K} (hS : StrokeSettings s0 D H) {fuel : Nat}
    {b : Brush K R} (hb : Midst s0 b) (h0 : b.st.strokeStarted = 0) {m : Motion K} {B : Reading K} (hm : ReportsPen e m B)
    (hd : m.dtime ≤ 5) (hp : (s0 sStrokeThreshold).base + 1 / 10000 < B.pressure) (hnp : ¬ TouchesAfterPause b.st.reading B m.dtime)
    {surf : σ × List (Dab.Args K)} {r : Bool × Brush K R × (σ × List (Dab.Args K))}
    (h : strokeTo (recordDabs e) fuel b surf m = .ok r) :
    ∃ t, 0 ≤ t ∧ t ≤ 1 ∧ HasCome s0 H (t * (hypot e (B.x - b.st.x) (B.y - b.st.y) / inputDistance e s0 D)) r.2.1 := by
  have hthr := hS.threshold
  have L' : Laws (recordDabs e) := ⟨L.exp_pos, L.sqrt_nonneg, L.sqrt_sq, L.trig, L.atan2_range, L.next_range, L.pow_range⟩
  have hE : endPressure s0 ≤ (s0 sStrokeThreshold).base + 1 / 10000 := by unfold endPressure; linarith
  obtain ⟨k1, k2, -⟩ := strokeTo_reads hb hS.slow hm hd h
  have pr : endPressure s0 < r.2.1.st.pressure := by
    rw [show r.2.1.st.pressure = B.pressure from k2.pressure]
    exact lt_of_le_of_lt hE hp
  obtain ⟨ev, he, ⟨-, h⟩ | ⟨w', -⟩⟩ := strokeTo_cases h
  · obtain ⟨e1, e2, e3, e4⟩ := sanitise_reports hm.recorded he
    have h5 : ev.dtime ≤ 5 := by
      rw [e4]
      split_ifs
      · norm_num
      · exact hd
    have hx : ev.x = B.x := by rw [← e1]; rfl
    have hy : ev.y = B.y := by rw [← e1]; rfl
    have hq : (s0 sStrokeThreshold).base + 1 / 10000 < ev.pressure := by
      rw [show ev.pressure = B.pressure by rw [← e1]; rfl]; exact hp
    have hs := hb.still
    have sk : skipStage (recordDabs e) b ev.x ev.y ev.dtime = (b, ev.dtime, false) := steady_skip hs _ _ _
    have cu := cursor_tracks (e := recordDabs e) (b := b) (T := (b.settings sSlowTracking).base) ⟨rfl, hs.noise, hs.skip⟩ ev.x ev.y ev.dtime
    rcases strokeEvent_cases h with ⟨h1, -⟩ | ⟨-, h1, -⟩ | ⟨-, -, h⟩
    · rw [sk] at h1; cases h1
    · rw [sk, hs.reset] at h1
      rcases h1 with q | q
      · exact absurd q (not_lt.mpr h5)
      · cases q
    · simp only [sk, cu] at h
      rw [followed_at_once _ (by rw [hb.settings]; exact hS.slow), followed_at_once _ (by rw [hb.settings]; exact hS.slow), hx, hy] at h
      obtain ⟨t, t0, t1, j1, j2⟩ := moveTo_begins L hS hb h0 hq (sanitise_pressure he).1 (sanitise_pressure he).2.le h
      exact ⟨t, t0, t1, k1, j1, pr, j2⟩
  · refine absurd ⟨?_, ?_, w'.2.2⟩ hnp
    · obtain ⟨-, -, -, e4⟩ := sanitise_reports hm.recorded he
      have q := w'.1
      rw [e4] at q
      split_ifs at q
      · exact absurd q (by norm_num)
      · exact q
    · obtain ⟨e1, -⟩ := sanitise_reports hm.recorded he
      rw [show B.pressure = ev.pressure by rw [← e1]; rfl]
      exact w'.2.1

end

namespace Demo

/-- A brush in the middle of a stroke, with the hold time `h`. -/
noncomputable def midStroke (h : ℝ) : Brush ℝ Nat :=
  { upright with
    st := { upright.st with strokeStarted := 1, pressure := 1 }
    settings := fun i => if i = sStrokeHoldtime then { upright.settings i with base := h } else upright.settings i }

/-- The hypotheses hold for it: it has come no way yet. -/
theorem midStroke_hasCome (h : ℝ) : StrokeSettings (midStroke h).settings 0 h ∧ HasCome (midStroke h).settings h 0 (midStroke h) := by
  refine ⟨⟨fun i => ?_, fun i => ?_, le_refl (0 : ℝ), ?_⟩, ⟨⟨⟨le_refl (0 : ℝ), zero_lt_one⟩, rfl, ?_, zero_le_one⟩, rfl, rfl⟩, one_ne_zero, ?_, ?_⟩
  · rfl
  · rfl
  · show (0 : ℝ) ≤ _; norm_num
  · show (0 : ℝ) ≤ _; norm_num
  · show (0 : ℝ) * (9 / 10) + 1 / 10000 < 1; norm_num
  · show Measures h 0 (0 : ℝ)
    unfold Measures
    split_ifs
    · exact .inl ⟨rfl, le_refl _⟩
    · refine (modArith_unique (le_refl _) ?_ ⟨0, by simp⟩).symm
      have := le_max_right h 0
      linarith

/-- Three to the right and four up: the radius is 1, and so is the stroke duration; after 5 the input is at one, or it starts again. -/
example {σ : Type} (next gauss : Nat → ℝ × Nat) (draw : σ → Dab.Args ℝ → Bool × σ)
    (getColor : σ → Int → Int → ℝ → ℝ → Color.Rgba ℝ × σ) (hn : ∀ r, 0 ≤ (next r).1 ∧ (next r).1 < 1) {fuel : Nat} (surf : σ) (h : ℝ)
    {r : Brush ℝ Nat × (σ × List (Dab.Args ℝ))}
    (hr : strokes (recordDabs (realEnv next gauss draw getColor)) fuel (midStroke h) (surf, [])
      [⟨.fin 3, .fin 4, 1, .fin 0, .fin 0, 1 / 10, 1, 0, 0, false⟩] = .ok r) : strokeInput r.1 = strokeAfter h 5 := by
  obtain ⟨h1, h2⟩ := midStroke_hasCome h
  have k := stroke_input_measures_the_way (realEnv_laws next gauss draw getColor hn) h1 (Bs := [⟨3, 4, 1, 0, 90, 90, 90, 0⟩])
    (.cons ⟨⟨⟨rfl, rfl⟩, ⟨by norm_num, by norm_num, by norm_num, by norm_num⟩, (max_eq_left zero_le_one).symm,
      fun _ _ => ⟨rfl, rfl, rfl, rfl⟩, fun q => absurd ⟨rfl, rfl⟩ q, (mul_zero _).symm⟩, by show (1 / 10 : ℝ) ≤ 5; norm_num, by
        show (0 : ℝ) * (9 / 10) + 1 / 10000 < 1; norm_num⟩ .nil) h2 hr
  rw [k]
  congr 1
  show 0 + (Real.sqrt ((3 - 0) * (3 - 0) + (4 - 0) * (4 - 0)) + 0) / (Real.exp 0 / Real.exp (-0)) = 5
  rw [neg_zero, div_self (Real.exp_ne_zero 0), show (3 - 0) * (3 - 0) + (4 - 0) * (4 - 0) = (5 : ℝ) ^ 2 by norm_num,
    Real.sqrt_sq (by norm_num)]
  norm_num

/-- With a hold time of 1 the input starts again at 2 and at 4; with 10 it stays at one. -/
example : strokeAfter (1 : ℚ) (9 / 2) = 1 / 2 ∧ strokeAfter (1 : ℚ) (7 / 2) = 1 ∧ strokeAfter (10 : ℚ) 30 = 1 := by
  refine ⟨?_, ?_, ?_⟩ <;> decide +kernel

/-- A brush without dabs, radius 1 and stroke duration 1, with the hold time `h`. -/
def holding (h : ℚ) : Brush ℚ Nat :=
  let b := set (set (set (set (set brush sDabsPerActualRadius 0) sDabsPerBasicRadius 0) sRadiusLogarithmic 0)
    sStrokeDurationLogarithmic 0) sStrokeHoldtime h
  { b with resetRequested := false }

/-- **C105** (against the documentation of the setting "stroke hold time": "9.9 or higher stands for infinite"). With 9.9 the input
starts again. -/
theorem hold_of_nine_point_nine_ends :
    look (fun r => strokeInput r.1) (strokes env 100 (holding (99 / 10)) [] [motion 11 0 (1 / 2) (1 / 20)]) = some (1 / 10) ∧
    look (fun r => strokeInput r.1) (strokes env 100 (holding 10) [] [motion 11 0 (1 / 2) (1 / 20)]) = some 1 := by
  constructor <;> decide +kernel

end Demo

end Verif.Engine
